import Verif.SpecComb
import Verif.SpecLang
/-!
# Specification of programs on truncated input and on streams

Which answers a program may give to octets that end too early, by recursion over the program, and which programs can be
run on a stream that is read bit by bit.
-/
namespace Verif.Spec

variable {E : Type} [ParseErr E]

/-- The answers to octets that end too early which a reader of a stream can work with, and the one exception: octets that
end inside a tag number are called an invalid tag. -/
inductive Unfinished (q : Bytes) : NomErr E → Prop
  | more (n : Nat) : 1 ≤ n → Unfinished q (.incomplete (.size n))
  | tag : CutInTag q → Unfinished q (.error (ParseErr.ofBer .invalidTag))

/-- The answers of the functions that hand the contents of an element to a closure: if the contents of known length are
not all there the answer is the error `Eof`. -/
inductive Headless (R : Rules) (q : Bytes) : NomErr E → Prop
  | unfinished (x : NomErr E) : Unfinished q x → Headless R q x
  | ends (hb c : Bytes) (h : Header) (l : Nat) : q = hb ++ c → HeaderBy R hb h → h.length = .definite l →
      c.length < l → Headless R q (.error (ParseErr.ofKind c .eof))

/-- The answers of a program to octets that end too early.  Code of the user and programs on other octets read nothing.
`complete` turns a request for more into an error and `cut` an error into a failure.  Nothing is said of the programs
that ask about absence or the end of the input. -/
def _root_.Verif.Prog.Truncated (D : Deps) : {α : Type} → Prog E α → Bytes → NomErr E → Prop
  | _, .value _, _, _ => False
  | _, .within _ _, _, _ => False
  | _, .bind p f, q, x => p.Truncated D q x ∨
      ∃ rem a, (p.meaning D).gives q rem a ∧ (f a).Truncated D rem x
  | _, .prim (.slice R _), q, x => ∃ y : NomErr BerError, Headless R q y ∧ x = y.map ParseErr.ofBer
  | _, .prim _, q, x => Unfinished q x
  | _, .container R _, q, x => Headless R q x
  | _, .defined R _ _, q, x => Headless R q x
  | _, .explicit R _ _, q, x => Headless R q x
  | _, .implicit R _ _, q, x => Headless R q x
  | _, .several R _ _, q, x => Headless R q x
  | _, .complete p, q, x => (p.Truncated D q x ∧ ∀ n, x ≠ .incomplete n) ∨
      ((∃ n, p.Truncated D q (.incomplete n)) ∧ x = .error (ParseErr.ofKind q .complete))
  | _, .cut p, q, x => (p.Truncated D q x ∧ ∀ e, x ≠ .error e) ∨ ∃ e, p.Truncated D q (.error e) ∧ x = .failure e
  | _, .attempt _, _, _ => True
  | _, .opt _, _, _ => True
  | _, .orElse _ _, _, _ => True
  | _, .many _, _, _ => True
  | _, .allConsuming _, _, _ => True
  | _, .eof, _, _ => True

/-- Programs for streams: calls of the functions of the library that take no closure, one after the other, with code of
the user in between.  What the code does with octets it has got is left open.  `parse_*_slice` is a container. -/
def _root_.Verif.Prog.Streaming : {α : Type} → Prog E α → Prop
  | _, .value _ => True
  | _, .within _ _ => True
  | _, .bind p f => p.Streaming ∧ ∀ a, (f a).Streaming
  | _, .prim (.slice _ _) => False
  | _, .prim _ => True
  | _, .container _ _ => False
  | _, .defined _ _ _ => False
  | _, .explicit _ _ _ => False
  | _, .implicit _ _ _ => False
  | _, .several _ _ _ => False
  | _, .complete _ => False
  | _, .cut _ => False
  | _, .attempt _ => False
  | _, .opt _ => False
  | _, .orElse _ _ => False
  | _, .many _ => False
  | _, .allConsuming _ => False
  | _, .eof => False

/-- Programs for streams whose requests are never too large, wherever the octets end: `parse_ber`, native integers,
`parse_ber_any` and headers.  The functions for one type and those of DER for any type ask for all the contents octets
again. -/
def _root_.Verif.Prog.Sharp : {α : Type} → Prog E α → Prop
  | _, .value _ => True
  | _, .within _ _ => True
  | _, .bind p f => p.Sharp ∧ ∀ a, (f a).Sharp
  | _, .prim (.any .ber _) => True
  | _, .prim (.any .der _) => False
  | _, .prim (.typed _ _) => False
  | _, .prim (.uint _ _) => True
  | _, .prim (.int _ _) => True
  | _, .prim (.slice _ _) => False
  | _, .prim .rawAny => True
  | _, .prim (.header _) => True
  | _, .prim (.content _ _ _ _) => False
  | _, .prim (.element _) => False
  | _, .container _ _ => False
  | _, .defined _ _ _ => False
  | _, .explicit _ _ _ => False
  | _, .implicit _ _ _ => False
  | _, .several _ _ _ => False
  | _, .complete _ => False
  | _, .cut _ => False
  | _, .attempt _ => False
  | _, .opt _ => False
  | _, .orElse _ _ => False
  | _, .many _ => False
  | _, .allConsuming _ => False
  | _, .eof => False

/-- The programs that are one call of a function that hands the contents of an element to a closure, with its rules. -/
def _root_.Verif.Prog.framing : {α : Type} → Prog E α → Option Rules
  | _, .container R _ => some R
  | _, .defined R _ _ => some R
  | _, .explicit R _ _ => some R
  | _, .implicit R _ _ => some R
  | _, .several R _ _ => some R
  | _, _ => none

end Verif.Spec
