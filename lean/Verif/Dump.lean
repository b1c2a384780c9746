import Verif.Visit
import Verif.Print
import Verif.Der
/-!
# The example program: model of /repo/examples/dump-der.rs

Output lines are events first; `DumpEvent.stdout` gives their text, with the text of `Verif/Print.lean` for an
object.  The file system is a function from names to contents.
-/
namespace Verif
open Outcome

/-- Output of the program. -/
inductive DumpEvent where
  /-- `println!("{:?}", pp)`, /repo/examples/dump-der.rs:56-57; the object is printed with header, not
  recursively, at indentation `2 * depth`. -/
  | object (o : BerObject) (depth : Nat)
  /-- `encapsulates {`, /repo/examples/dump-der.rs:21. -/
  | opens (depth : Nat)
  /-- `}`, /repo/examples/dump-der.rs:44. -/
  | closes (depth : Nat)
  /-- The two `eprintln!`, /repo/examples/dump-der.rs:30-34. -/
  | parseError (depth : Nat)
  /-- `WARNING: {} remaining bytes`, /repo/examples/dump-der.rs:47. -/
  | remaining (n : Nat) (depth : Nat)

/-- The text of an object line, /repo/examples/dump-der.rs:56-57. -/
def DumpEvent.objectText (P : PrintDeps) (o : BerObject) (depth : Nat) : Bytes :=
  PrettyBer.fmt P { obj := o, indent := depth * 2, inc := 2, flags := [.showHeader] } ++ lit "\n"

/-- The `while` loop, /repo/examples/dump-der.rs:17-42; gives the output, the final `i` and
`first_object`.  `run` is `self.run_at`. -/
def encapLoop (D : Deps) (run : BerObject → Nat → Outcome Empty (List DumpEvent))
    (constructed : Bool) (depth : Nat) :
    Nat → Bytes → Bool → Outcome Empty (List DumpEvent × Bytes × Bool)
  | 0, _, _ => .diverge
  | _ + 1, [], first => .ok ([], [], first)
  | fuel + 1, b :: i, first =>
    match parseBerAnyR D maxRecursion (b :: i) with
    | .ok r =>
      run r.2 (depth + 1) >>? fun ev =>
        encapLoop D run constructed depth fuel r.1 false >>? fun t =>
          .ok ((if first then [.opens depth] else []) ++ ev ++ t.1, t.2)
    | .err _ =>
      if constructed then .ok ([.parseError depth], b :: i, first) else .ok ([], [], first)
    | .panic => .panic
    | .diverge => .diverge

/-- `try_print_encapsulated`, /repo/examples/dump-der.rs:14-49. -/
def tryPrintEncapsulated (D : Deps) (run : BerObject → Nat → Outcome Empty (List DumpEvent))
    (data : Bytes) (depth : Nat) (o : BerObject) : Outcome Empty (List DumpEvent) :=
  encapLoop D run o.header.constructed depth (data.length + 1) data true >>? fun t =>
    .ok (t.1 ++ (if t.2.2 then [] else [.closes depth]) ++
      if t.2.1.isEmpty then [] else [.remaining t.2.1.length depth])

/-- `visit_ber`, /repo/examples/dump-der.rs:53-68. -/
def dumpVisitBer (D : Deps) (run : BerObject → Nat → Outcome Empty (List DumpEvent)) (o : BerObject)
    (depth : Nat) : Outcome Empty (List DumpEvent) :=
  match o.content with
  | .unknown a =>
    tryPrintEncapsulated D run a.data depth o >>? fun ev => .ok (.object o depth :: ev)
  | .octetString s =>
    tryPrintEncapsulated D run s depth o >>? fun ev => .ok (.object o depth :: ev)
  | _ => .ok [.object o depth]

/-- `BerPrinter` as a `Visit` whose state is the output so far, /repo/examples/dump-der.rs:52-69
(only `visit_ber` is overridden). -/
def dumpVisitor (D : Deps) (run : BerObject → Nat → Outcome Empty (List DumpEvent)) :
    Visitor (Outcome Empty (List DumpEvent)) where
  visitBer o depth s := s >>? fun acc => dumpVisitBer D run o depth >>? fun ev => .ok (acc ++ ev)
  callback _ _ _ s := s

/-- `run_at` of `BerPrinter`.  The recursion goes through the contents of octet strings, so it runs on
fuel. -/
def dumpAt (D : Deps) : Nat → BerObject → Nat → Outcome Empty (List DumpEvent)
  | 0, _, _ => .diverge
  | fuel + 1, o, depth => (dumpVisitor D (dumpAt D fuel)).runAt o depth (.ok [])

/-- What is written to the standard output; the width of `{:1$}` is a minimum. -/
def DumpEvent.stdout (P : PrintDeps) : DumpEvent → Bytes
  | .object o depth => DumpEvent.objectText P o depth
  | .opens depth => spaces (max 1 (depth * 2)) ++ lit "encapsulates {\n"
  | .closes depth => spaces (max 1 (depth * 2)) ++ lit "}\n"
  | .parseError _ => []
  | .remaining n depth =>
    lit "WARNING: " ++ decimal n ++ lit " remaining bytes at depth " ++ decimal depth ++ lit "\n"

/-- `main` on one file, /repo/examples/dump-der.rs:86-95: the output of the printer, and the extra bytes.
Panics (`expect`) when the file does not start with an object. -/
def dumpMain (D : Deps) (parseAsBer : Bool) (data : Bytes) :
    Outcome Empty (List DumpEvent × Bytes) :=
  match (if parseAsBer then parseBer D data else parseDer D data) with
  | .ok r => dumpAt D (data.length + 1) r.2 1 >>? fun ev => .ok (ev, r.1)
  | .err _ => .panic
  | .panic => .panic
  | .diverge => .diverge

/-- The warning about extra bytes, /repo/examples/dump-der.rs:93-95. -/
def extraText (rem : Bytes) : Bytes :=
  if rem.isEmpty then [] else lit "WARNING: extra bytes after BER/DER object:\n" ++ debugHexBytes rem ++ lit "\n"

/-- The loop of `main` over the arguments, /repo/examples/dump-der.rs:73-96: what is written to the standard
output, and whether the loop ends (`false`: a panic at an `expect`, which comes before any output for that
file).  `read` is `std::fs::read`, `none` for an error. -/
def dumpArgs (P : PrintDeps) (D : Deps) (read : String → Option Bytes) : Bool → List String → Bytes × Bool
  | _, [] => ([], true)
  | ber, a :: as =>
    if a = "--ber" then dumpArgs P D read true as
    else if a = "--der" then dumpArgs P D read false as
    else match read a with
      | none => ([], false)
      | some data =>
        match dumpMain D ber data with
        | .ok r =>
          let next := dumpArgs P D read ber as
          (r.1.flatMap (DumpEvent.stdout P) ++ extraText r.2 ++ next.1, next.2)
        | _ => ([], false)

/-- `main`, /repo/examples/dump-der.rs:71-98; `args` are the arguments without the program name. -/
def dumpProgram (P : PrintDeps) (D : Deps) (read : String → Option Bytes) (args : List String) : Bytes × Bool :=
  dumpArgs P D read false args

end Verif
