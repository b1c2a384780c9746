import Verif.Object
import Verif.Fmt
/-!
# Pretty printer: model of /repo/src/ber/print.rs

`Debug` for `PrettyBer` writes to a formatter; the model gives the text written (writing to a
`String` cannot fail; an error of another formatter would stop the output early and is not
modelled).
-/
namespace Verif

/-- `PrettyPrinterFlag`, /repo/src/ber/print.rs:15-18. -/
inductive PrettyPrinterFlag where
  | recursive | showHeader
deriving DecidableEq, Repr

/-- `PrettyBer`, /repo/src/ber/print.rs:23-29. -/
structure PrettyBer where
  obj : BerObject
  indent : Nat
  inc : Nat
  flags : List PrettyPrinterFlag

/-- `PrettyBer::new`, /repo/src/ber/print.rs:38-50. -/
def PrettyBer.new (o : BerObject) (flags : List PrettyPrinterFlag) (indent increment : Nat) : PrettyBer :=
  { obj := o, indent, inc := increment, flags }

/-- `as_pretty`, /repo/src/ber/print.rs:32-34. -/
def BerObject.asPretty (o : BerObject) (indent increment : Nat) : PrettyBer :=
  .new o [.recursive] indent increment

/-- `set_flag`, /repo/src/ber/print.rs:52-56. -/
def PrettyBer.setFlag (p : PrettyBer) (f : PrettyPrinterFlag) : PrettyBer :=
  if p.flags.contains f then p else { p with flags := p.flags ++ [f] }

/-- `unset_flag`, /repo/src/ber/print.rs:58-60. -/
def PrettyBer.unsetFlag (p : PrettyBer) (f : PrettyPrinterFlag) : PrettyBer :=
  { p with flags := p.flags.filter (· != f) }

/-- `is_flag_set`, /repo/src/ber/print.rs:62-64. -/
def PrettyBer.isFlagSet (p : PrettyBer) (f : PrettyPrinterFlag) : Bool := p.flags.contains f

/-- `next_indent`, /repo/src/ber/print.rs:66-73. -/
def PrettyBer.nextIndent (p : PrettyBer) (o : BerObject) : PrettyBer :=
  { obj := o, indent := p.indent + p.inc, inc := p.inc, flags := p.flags }

/-- `is_recursive`, /repo/src/ber/print.rs:75-78. -/
def PrettyBer.isRecursive (p : PrettyBer) : Bool := p.isFlagSet .recursive

/-- Text produced by other crates; nothing is assumed about it. -/
structure PrintDeps where
  /-- `Debug for HexSlice`, crate rusticata-macros (also with `{:x?}`). -/
  hexSlice : Bytes → Bytes
  /-- `Debug for asn1_rs::Oid`, of an absolute or relative (`true`) OID. -/
  oid : Bool → Bytes → Bytes
  /-- `Display for asn1_rs::Tag`. -/
  tag : Nat → Bytes
  /-- `Display for asn1_rs::Class`. -/
  cls : Class → Bytes
  /-- `Display for ASN1DateTime`. -/
  dateTime : DateTime → Bytes
  /-- The derived `Debug for BerObject` (used for `Optional`). -/
  debugObj : BerObject → Bytes

/-- `dbg_header`, /repo/src/ber/print.rs:81-101. -/
def dbgHeader (P : PrintDeps) (h : Header) : Bytes :=
  let sConstructed := if h.constructed then lit "+" else []
  let l := match h.length with
    | .definite sz => decimal sz
    | .indefinite => lit "Indefinite"
  match h.cls with
  | .universal => lit "[" ++ P.tag h.tag ++ lit "]" ++ sConstructed ++ lit " " ++ l
  | .contextSpecific => lit "[" ++ decimal h.tag ++ lit "]" ++ sConstructed ++ lit " " ++ l
  | c => lit "[" ++ P.cls c ++ lit " " ++ decimal h.tag ++ lit "]" ++ sConstructed ++ lit " " ++ l

/-- `print_utf16_string_with_type`, /repo/src/ber/print.rs:113-124. -/
def printUtf16 (s : Bytes) (ty : String) : Bytes :=
  match decodeUtf16 (utf16Units s) with
  | some cs => lit ty ++ lit "(\"" ++ cs.flatMap encodeUtf8 ++ lit "\")\n"
  | none => lit ty ++ lit "(Err(FromUtf16Error(()))) <error decoding utf32 string>\n"

/-- `print_utf32_string_with_type`, /repo/src/ber/print.rs:125-135. -/
def printUtf32 (s : Bytes) (ty : String) : Bytes :=
  if (utf32Units s).all isScalarValue then
    lit ty ++ lit "(\"" ++ (utf32Units s).flatMap encodeUtf8 ++ lit "\")\n"
  else lit ty ++ lit "(" ++ debugBytes s ++ lit ") <error decoding utf32 string>\n"

/-- The string variants of the `match`, /repo/src/ber/print.rs:149-158 (T61String and
VideotexString are written without quotes). -/
def printStr (k : StrKind) (s : Bytes) : Bytes :=
  match k with
  | .visible => lit "VisibleString(\"" ++ s ++ lit "\")"
  | .general => lit "GeneralString(\"" ++ s ++ lit "\")"
  | .graphic => lit "GraphicString(\"" ++ s ++ lit "\")"
  | .printable => lit "PrintableString(\"" ++ s ++ lit "\")"
  | .numeric => lit "NumericString(\"" ++ s ++ lit "\")"
  | .utf8 => lit "UTF8String(\"" ++ s ++ lit "\")"
  | .ia5 => lit "IA5String(\"" ++ s ++ lit "\")"
  | .t61 => lit "T61String(" ++ s ++ lit ")"
  | .videotex => lit "VideotexString(" ++ s ++ lit ")"
  | .objectDescriptor => lit "ObjectDescriptor(\"" ++ s ++ lit "\")"

/-- What is written before the content: indentation and header,
/repo/src/ber/print.rs:106-112. -/
def PrettyBer.intro (P : PrintDeps) (p : PrettyBer) (h : Header) : Bytes :=
  (if 0 < p.indent then spaces p.indent else []) ++
    if p.flags.contains .showHeader then dbgHeader P h ++ lit " " else []

/-- The indentation before a closing bracket, /repo/src/ber/print.rs:169-171, 183-185. -/
def PrettyBer.outro (p : PrettyBer) : Bytes := if 0 < p.indent then spaces p.indent else []

mutual
/-- `Debug for PrettyBer`, /repo/src/ber/print.rs:103-197; `o` is `p.obj` (a separate argument so
that the recursion is structural). -/
def fmtObj (P : PrintDeps) (p : PrettyBer) : BerObject → Bytes
  | .mk h c => p.intro P h ++ fmtContent P p h c
/-- The `match self.obj.content`, /repo/src/ber/print.rs:136-196. -/
def fmtContent (P : PrintDeps) (p : PrettyBer) (h : Header) : Content → Bytes
  | .endOfContent => lit "EndOfContent"
  | .boolean b => lit "Boolean(" ++ lit (if b then "true" else "false") ++ lit ")"
  | .integer i => lit "Integer(" ++ P.hexSlice i ++ lit ")"
  | .enum i => lit "Enum(" ++ decimal i ++ lit ")"
  | .oid v => lit "OID(" ++ P.oid false v ++ lit ")"
  | .relativeOid v => lit "RelativeOID(" ++ P.oid true v ++ lit ")"
  | .null => lit "Null"
  | .octetString v => lit "OctetString(" ++ P.hexSlice v ++ lit ")"
  | .bitString u v => lit "BitString(" ++ decimal u.toNat ++ lit "," ++ P.hexSlice v ++ lit ")"
  | .generalizedTime t => lit "GeneralizedTime(\"" ++ P.dateTime t ++ lit "\")"
  | .utcTime t => lit "UTCTime(\"" ++ P.dateTime t ++ lit "\")"
  | .str k s => printStr k s
  | .bmpString s => printUtf16 s "BmpString"
  | .universalString s => printUtf32 s "UniversalString"
  | .optionalSome o => lit "OPTION " ++ P.debugObj o
  | .optionalNone => lit "NONE"
  | .tagged cls tag o =>
    lit "ContextSpecific [" ++ P.cls cls ++ lit " " ++ decimal tag ++ lit "] {\n" ++
      fmtObj P (p.nextIndent o) o ++ p.outro ++ lit "}"
  | .set v =>
    let ty := if h.tag = Tag.sequence then lit "Sequence" else lit "Set"
    if p.isRecursive then ty ++ lit "[\n" ++ fmtList P p v ++ p.outro ++ lit "]" else ty
  | .sequence v =>
    let ty := if h.tag = Tag.sequence then lit "Sequence" else lit "Set"
    if p.isRecursive then ty ++ lit "[\n" ++ fmtList P p v ++ p.outro ++ lit "]" else ty
  | .unknown a => lit "Unknown " ++ P.hexSlice a.data
/-- The loop `for o in v`, /repo/src/ber/print.rs:181-183. -/
def fmtList (P : PrintDeps) (p : PrettyBer) : List BerObject → Bytes
  | [] => []
  | o :: os => fmtObj P (p.nextIndent o) o ++ fmtList P p os
end

/-- `format!("{:?}", p)`. -/
def PrettyBer.fmt (P : PrintDeps) (p : PrettyBer) : Bytes := fmtObj P p p.obj

end Verif
