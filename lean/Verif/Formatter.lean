import Verif.Print
import Verif.Word
/-!
# The pretty printer on any formatter

`Verif/Print.lean` gives the text that `Debug for PrettyBer` (/repo/src/ber/print.rs:103-197) writes into a
`String`, with unbounded indentation.  Here the function is modelled with what it writes to: any
`core::fmt::Write`, which can refuse a piece of text, so that every `?` of the function matters; and with the two
computations that can panic, the sum in `next_indent` and widths that `core::fmt` refuses.
-/
namespace Verif
open Outcome

/-- A `core::fmt::Write` with states `σ`.  `writeStr` is `write_str`: the new state, and `true` for `Ok`.
`pieces` is how the text of one `write!` is cut into calls of `write_str`; it depends on `core::fmt` and on the
`Debug` functions of other crates, so nothing is assumed but that no text is lost. -/
structure Sink (σ : Type) where
  writeStr : σ → Bytes → σ × Bool
  pieces : Bytes → List Bytes
  pieces_flatten : ∀ t, (pieces t).flatten = t

/-- How a formatting function ends: `Ok(())`, `Err(fmt::Error)`, or a panic. -/
inductive FmtEnd where
  | done | failed | panicked
deriving DecidableEq, Repr

/-- A formatting function with its output, as a function of the state of the output. -/
abbrev Fm (σ : Type) := σ → σ × FmtEnd

namespace Fm
variable {σ : Type}

/-- `x?; y`. -/
def andThen (x y : Fm σ) : Fm σ := fun s =>
  match x s with
  | (s', .done) => y s'
  | r => r

/-- `Ok(())`. -/
def ok : Fm σ := fun s => (s, .done)

/-- `panic!`. -/
def panic : Fm σ := fun s => (s, .panicked)

/-- The calls of `write_str` for the pieces of a text; `core::fmt::write` stops at the first error. -/
def putAll (S : Sink σ) : List Bytes → Fm σ
  | [], s => (s, .done)
  | t :: ts, s =>
    let r := S.writeStr s t
    if r.2 then putAll S ts r.1 else (r.1, .failed)

/-- `write!` or `writeln!` of a text. -/
def put (S : Sink σ) (t : Bytes) : Fm σ := putAll S (S.pieces t)

end Fm

/-- What the computations of the printer depend on: the target, and the greatest width that `core::fmt` accepts in
`{:1$}` (65535 in recent versions, which panic above it; `none` in older ones). -/
structure FmtTarget where
  target : Target
  maxWidth : Option Nat

/-- Does `core::fmt` refuse the width? -/
def FmtTarget.refuses (T : FmtTarget) (n : Nat) : Bool :=
  match T.maxWidth with
  | some w => w < n
  | none => false

section
variable {σ : Type}

/-- `if self.indent > 0 { write!(f, "{:1$}", " ", self.indent)?; }`, /repo/src/ber/print.rs:106-108, 169-171,
183-185. -/
def PrettyBer.indentF (T : FmtTarget) (S : Sink σ) (p : PrettyBer) : Fm σ :=
  if 0 < p.indent then (if T.refuses p.indent then .panic else .put S (spaces p.indent)) else .ok

/-- Indentation and header, /repo/src/ber/print.rs:106-112. -/
def PrettyBer.introF (T : FmtTarget) (S : Sink σ) (P : PrintDeps) (p : PrettyBer) (h : Header) : Fm σ :=
  (p.indentF T S).andThen <|
    if p.flags.contains .showHeader then (Fm.put S (dbgHeader P h)).andThen (.put S (lit " ")) else .ok

/-- `self.next_indent(o)` on a target, /repo/src/ber/print.rs:66-73, used by `k`: the sum of L69 can overflow. -/
def PrettyBer.withNext (T : FmtTarget) (p : PrettyBer) (o : BerObject) (k : PrettyBer → Fm σ) : Fm σ :=
  match T.target.word (ε := Empty) (p.indent + p.inc) with
  | .ok n => k { obj := o, indent := n, inc := p.inc, flags := p.flags }
  | _ => .panic

mutual
/-- `Debug for PrettyBer`, /repo/src/ber/print.rs:103-197. -/
def fmtObjF (T : FmtTarget) (S : Sink σ) (P : PrintDeps) (p : PrettyBer) : BerObject → Fm σ
  | .mk h c => (p.introF T S P h).andThen (fmtContentF T S P p h c)
/-- The `match self.obj.content`, /repo/src/ber/print.rs:136-196: one `write!` but for `Tagged` (L166-174) and
SEQUENCE and SET (L175-191). -/
def fmtContentF (T : FmtTarget) (S : Sink σ) (P : PrintDeps) (p : PrettyBer) (h : Header) : Content → Fm σ
  | .tagged cls tag o =>
    (Fm.put S (lit "ContextSpecific [" ++ P.cls cls ++ lit " " ++ decimal tag ++ lit "] {\n")).andThen <|
      (p.withNext T o fun q => fmtObjF T S P q o).andThen <|
        (p.indentF T S).andThen (.put S (lit "}"))
  | .set v =>
    let ty := if h.tag = Tag.sequence then lit "Sequence" else lit "Set"
    if p.isRecursive then
      (Fm.put S (ty ++ lit "[\n")).andThen <| (fmtListF T S P p v).andThen <|
        (p.indentF T S).andThen (.put S (lit "]"))
    else .put S ty
  | .sequence v =>
    let ty := if h.tag = Tag.sequence then lit "Sequence" else lit "Set"
    if p.isRecursive then
      (Fm.put S (ty ++ lit "[\n")).andThen <| (fmtListF T S P p v).andThen <|
        (p.indentF T S).andThen (.put S (lit "]"))
    else .put S ty
  | c => .put S (fmtContent P p h c)
/-- The loop `for o in v`, /repo/src/ber/print.rs:181-183. -/
def fmtListF (T : FmtTarget) (S : Sink σ) (P : PrintDeps) (p : PrettyBer) : List BerObject → Fm σ
  | [] => .ok
  | o :: os => (p.withNext T o fun q => fmtObjF T S P q o).andThen (fmtListF T S P p os)
end

/-- `write!(f, "{:?}", p)`. -/
def PrettyBer.fmtF (T : FmtTarget) (S : Sink σ) (P : PrintDeps) (p : PrettyBer) : Fm σ := fmtObjF T S P p p.obj

end

/-- `String` as a `core::fmt::Write`. -/
def stringSink : Sink Bytes where
  writeStr s t := (s ++ t, true)
  pieces t := [t]
  pieces_flatten t := by simp

end Verif
