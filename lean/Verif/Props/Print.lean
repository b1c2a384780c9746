import Verif.Print
import Verif.Tests
import Verif.Spec
import Verif.Lemmas.Text
import Verif.Props.Contents
/-!
# Text output of the pretty printer: C68 to C71
-/
namespace Verif
open Outcome Spec

/-! ## C69 -/

namespace Spec

/-- One piece of the printed text: the nesting depth, the object it introduces (`none` for a closing
bracket), and the text after indentation and header. -/
structure Piece where
  depth : Nat
  opens : Option BerObject
  text : Bytes

/-- The name written for a SEQUENCE or SET object: by the tag of the header. -/
def listName (h : Header) : Bytes := if h.tag = 16 then lit "Sequence" else lit "Set"

mutual
/-- The pieces of the text of an object, in pre-order: SEQUENCE, SET and tagged objects open a
bracket, followed by their parts one level deeper and a closing bracket; everything else is one
piece.  `leaf` is the text of the other contents. -/
def pieces (P : PrintDeps) (leaf : Content → Bytes) (d : Nat) : BerObject → List Piece
  | .mk h c => piecesC P leaf d h c
/-- The same, by content. -/
def piecesC (P : PrintDeps) (leaf : Content → Bytes) (d : Nat) (h : Header) : Content → List Piece
  | .sequence l => ⟨d, some (.mk h (.sequence l)), listName h ++ lit "[\n"⟩ ::
      (piecesL P leaf (d + 1) l ++ [⟨d, none, lit "]"⟩])
  | .set l => ⟨d, some (.mk h (.set l)), listName h ++ lit "[\n"⟩ ::
      (piecesL P leaf (d + 1) l ++ [⟨d, none, lit "]"⟩])
  | .tagged k t o => ⟨d, some (.mk h (.tagged k t o)),
        lit "ContextSpecific [" ++ P.cls k ++ lit " " ++ decimal t ++ lit "] {\n"⟩ ::
      (pieces P leaf (d + 1) o ++ [⟨d, none, lit "}"⟩])
  | c => [⟨d, some (.mk h c), leaf c⟩]
/-- The same, for lists. -/
def piecesL (P : PrintDeps) (leaf : Content → Bytes) (d : Nat) : List BerObject → List Piece
  | [] => []
  | o :: os => pieces P leaf d o ++ piecesL P leaf d os
end

/-- A piece as text: indentation, header if wanted, text. -/
def render (P : PrintDeps) (indent inc : Nat) (showHeader : Bool) (x : Piece) : Bytes :=
  List.replicate (indent + x.depth * inc) 0x20 ++
    (match x.opens with
     | some o => if showHeader then dbgHeader P o.header ++ lit " " else []
     | none => []) ++ x.text

mutual
/-- Objects that get a piece of text: the object itself, the elements of SEQUENCE and SET, the
object inside a tag; in pre-order. -/
def printed : BerObject → List BerObject
  | .mk h c => .mk h c :: printedC c
/-- The same, for the parts of a content. -/
def printedC : Content → List BerObject
  | .sequence l => printedL l
  | .set l => printedL l
  | .tagged _ _ o => printed o
  | _ => []
/-- The same, for lists. -/
def printedL : List BerObject → List BerObject
  | [] => []
  | o :: os => printed o ++ printedL os
end

end Spec

/-- Text of the contents without brackets, as the printer writes it (no object inside, so header,
indentation and flags do not matter). -/
def leafText (P : PrintDeps) (c : Content) : Bytes :=
  fmtContent P ⟨.mk (Header.new .universal false 0 (.definite 0)) .null, 0, 0, []⟩
    (Header.new .universal false 0 (.definite 0)) c

theorem indent_eq (n : Nat) : (if 0 < n then spaces n else []) = List.replicate n 0x20 := by
  cases n <;> simp [spaces]

theorem intro_eq (P : PrintDeps) (p : PrettyBer) (h : Header) : p.intro P h =
    List.replicate p.indent 0x20 ++
      if p.flags.contains .showHeader then dbgHeader P h ++ lit " " else [] := by
  unfold PrettyBer.intro; rw [indent_eq]

theorem outro_eq (p : PrettyBer) : p.outro = List.replicate p.indent 0x20 := by
  unfold PrettyBer.outro; rw [indent_eq]

section
variable (P : PrintDeps) (indent inc : Nat) (flags : List PrettyPrinterFlag)

mutual
theorem fmtObj_pieces (hr : flags.contains .recursive = true) (d : Nat) (x : BerObject) :
    ∀ o : BerObject, fmtObj P ⟨x, indent + d * inc, inc, flags⟩ o =
      (pieces P (leafText P) d o).flatMap (render P indent inc (flags.contains .showHeader))
  | .mk h c => by
    simp only [fmtObj, pieces]
    exact fmtContent_pieces hr d x h c
theorem fmtContent_pieces (hr : flags.contains .recursive = true) (d : Nat) (x : BerObject)
    (h : Header) : ∀ c : Content,
    PrettyBer.intro P ⟨x, indent + d * inc, inc, flags⟩ h ++
      fmtContent P ⟨x, indent + d * inc, inc, flags⟩ h c =
      (piecesC P (leafText P) d h c).flatMap (render P indent inc (flags.contains .showHeader))
  | .sequence l => by
    have hr' : (⟨x, indent + d * inc, inc, flags⟩ : PrettyBer).isRecursive = true := hr
    simp only [fmtContent, hr', if_true, piecesC, List.flatMap_cons, List.flatMap_append,
      List.flatMap_nil, List.append_nil]
    rw [fmtList_pieces hr d x l, intro_eq, outro_eq]
    simp [render, listName, Tag.sequence, List.append_assoc]
    rfl
  | .set l => by
    have hr' : (⟨x, indent + d * inc, inc, flags⟩ : PrettyBer).isRecursive = true := hr
    simp only [fmtContent, hr', if_true, piecesC, List.flatMap_cons, List.flatMap_append,
      List.flatMap_nil, List.append_nil]
    rw [fmtList_pieces hr d x l, intro_eq, outro_eq]
    simp [render, listName, Tag.sequence, List.append_assoc]
    rfl
  | .tagged k t o => by
    simp only [fmtContent, piecesC, List.flatMap_cons, List.flatMap_append,
      List.flatMap_nil, List.append_nil]
    have := fmtObj_pieces hr (d + 1) o o
    rw [Nat.add_mul, Nat.one_mul, ← Nat.add_assoc] at this
    simp only [PrettyBer.nextIndent]
    rw [this, intro_eq, outro_eq]
    simp [render, List.append_assoc]
  | .endOfContent | .null | .optionalNone | .boolean _ | .integer _ | .octetString _ | .enum _
  | .oid _ | .relativeOid _ | .bmpString _ | .universalString _ | .utcTime _
  | .generalizedTime _ | .bitString _ _ | .str _ _ | .optionalSome _ | .unknown _ => by
    rw [intro_eq]
    simp only [piecesC, List.flatMap_cons, List.flatMap_nil, List.append_nil, render, leafText,
      fmtContent, BerObject.header_mk]
theorem fmtList_pieces (hr : flags.contains .recursive = true) (d : Nat) (x : BerObject) :
    ∀ l : List BerObject, fmtList P ⟨x, indent + d * inc, inc, flags⟩ l =
      (piecesL P (leafText P) (d + 1) l).flatMap
        (render P indent inc (flags.contains .showHeader))
  | [] => rfl
  | o :: os => by
    simp only [fmtList, piecesL, List.flatMap_append]
    have := fmtObj_pieces hr (d + 1) o o
    rw [Nat.add_mul, Nat.one_mul, ← Nat.add_assoc] at this
    simp only [PrettyBer.nextIndent]
    rw [this, fmtList_pieces hr d x os]
end

end

mutual
theorem pieces_opens (P : PrintDeps) (leaf : Content → Bytes) (d : Nat) : ∀ o : BerObject,
    (pieces P leaf d o).filterMap Piece.opens = printed o
  | .mk h c => by simp only [pieces, printed]; exact piecesC_opens P leaf d h c
theorem piecesC_opens (P : PrintDeps) (leaf : Content → Bytes) (d : Nat) (h : Header) :
    ∀ c : Content, (piecesC P leaf d h c).filterMap Piece.opens = .mk h c :: printedC c
  | .sequence l => by
    simp [piecesC, printedC, piecesL_opens P leaf (d + 1) l]
  | .set l => by
    simp [piecesC, printedC, piecesL_opens P leaf (d + 1) l]
  | .tagged k t o => by
    simp [piecesC, printedC, pieces_opens P leaf (d + 1) o]
  | .endOfContent | .null | .optionalNone | .boolean _ | .integer _ | .octetString _ | .enum _
  | .oid _ | .relativeOid _ | .bmpString _ | .universalString _ | .utcTime _
  | .generalizedTime _ | .bitString _ _ | .str _ _ | .optionalSome _ | .unknown _ => rfl
theorem piecesL_opens (P : PrintDeps) (leaf : Content → Bytes) (d : Nat) :
    ∀ l : List BerObject, (piecesL P leaf d l).filterMap Piece.opens = printedL l
  | [] => rfl
  | o :: os => by
    simp [piecesL, printedL, List.filterMap_append, pieces_opens P leaf d o,
      piecesL_opens P leaf d os]
end

/-- Text of the other crates for examples. -/
def Tests.P0 : PrintDeps where
  hexSlice s := debugBytes s
  oid _ s := debugBytes s
  tag n := decimal n
  cls | .universal => lit "UNIVERSAL" | .application => lit "APPLICATION"
      | .contextSpecific => lit "CONTEXT-SPECIFIC" | .priv => lit "PRIVATE"
  dateTime _ := lit "time"
  debugObj _ := lit "object"

/-- The object printed by the test /repo/src/ber/print.rs:204-212. -/
def Tests.printed : BerObject := .fromSeq
  [.fromIntSlice [1, 0, 1], .fromIntSlice [1, 0, 1],
    .fromSet [.fromIntSlice [1], .fromIntSlice [2]]]

/-- C69: with the flag `Recursive`, the text is the concatenation of the pieces of the object in
pre-order, each preceded by `indent + depth * increment` spaces and, with the flag `ShowHeader`, by
the header of its object. -/
theorem C69_layout (P : PrintDeps) (p : PrettyBer) (hr : p.isFlagSet .recursive = true) :
    p.fmt P = (pieces P (leafText P) 0 p.obj).flatMap
      (render P p.indent p.inc (p.isFlagSet .showHeader)) := by
  have := fmtObj_pieces P p.indent p.inc p.flags hr 0 p.obj p.obj
  rw [Nat.zero_mul, Nat.add_zero] at this
  exact this

example := C69_layout Tests.P0 (Tests.printed.asPretty 3 2) rfl

/-- C69: every object of the tree (elements of SEQUENCE and SET, objects inside tags) is introduced
by exactly one piece, in pre-order. -/
theorem C69_each_object_once (P : PrintDeps) (o : BerObject) :
    (pieces P (leafText P) 0 o).filterMap Piece.opens = printed o :=
  pieces_opens P _ 0 o

example : (Tests.printed.asPretty 0 2).fmt Tests.P0 = lit
    "Sequence[\n  Integer([1, 0, 1])  Integer([1, 0, 1])  Set[\n    Integer([1])    Integer([2])  ]]" := by
  decide +kernel

/-! ## C68 -/

namespace Spec

/-- An object without what is nested in it. -/
def shell : BerObject → BerObject
  | .mk h (.sequence _) => .mk h (.sequence [])
  | .mk h (.set _) => .mk h (.set [])
  | .mk h (.tagged k t _) => .mk h (.tagged k t (.fromObj .null))
  | .mk h (.optionalSome _) => .mk h (.optionalSome (.fromObj .null))
  | o => o

end Spec

/-- C68, as documented: without the flag `Recursive` nested objects are not printed (so the text
does not depend on them). -/
def C68Statement : Prop :=
  ∀ (P : PrintDeps) (p : PrettyBer) (o o' : BerObject), p.isFlagSet .recursive = false →
    shell o = shell o' → { p with obj := o }.fmt P = { p with obj := o' }.fmt P

/-- C68 is false: the object inside a tag is printed whatever the flags. -/
theorem C68_tagged_counterexample : ¬ C68Statement := by
  intro h
  have := h Tests.P0 ⟨.fromObj .null, 0, 0, []⟩
    (.mk (Header.new .contextSpecific true 0 (.definite 0)) (.tagged .contextSpecific 0 (.fromObj .null)))
    (.mk (Header.new .contextSpecific true 0 (.definite 0))
      (.tagged .contextSpecific 0 (.fromObj (.boolean true)))) rfl rfl
  revert this
  decide +kernel

/-- C68, what holds: for SEQUENCE and SET the text is the header and the type name, nothing else.
Missing: tagged and optional objects. -/
theorem C68_not_recursive_partial (P : PrintDeps) (p : PrettyBer) (h : Header) (l : List BerObject)
    (hr : p.isFlagSet .recursive = false)
    (ho : p.obj = .mk h (.sequence l) ∨ p.obj = .mk h (.set l)) :
    p.fmt P = render P p.indent p.inc (p.isFlagSet .showHeader) ⟨0, some p.obj, listName h⟩ := by
  have hr' : p.isRecursive = false := hr
  unfold PrettyBer.fmt
  rcases ho with ho | ho <;>
  · rw [ho]
    simp only [fmtObj, fmtContent, hr', Bool.false_eq_true, if_false, render, intro_eq,
      Nat.zero_mul, Nat.add_zero, BerObject.header_mk, listName, Tag.sequence, PrettyBer.isFlagSet]
    rfl

/-- C68: hence the text does not depend on the elements. -/
theorem C68_elements_ignored_partial (P : PrintDeps) (p : PrettyBer) (h : Header)
    (l l' : List BerObject) (hr : p.isFlagSet .recursive = false) :
    { p with obj := .mk h (.sequence l) }.fmt P = { p with obj := .mk h (.sequence l') }.fmt P ∧
    { p with obj := .mk h (.set l) }.fmt P = { p with obj := .mk h (.set l') }.fmt P := by
  constructor
  · rw [C68_not_recursive_partial P { p with obj := .mk h (.sequence l) } h l hr (.inl rfl),
      C68_not_recursive_partial P { p with obj := .mk h (.sequence l') } h l' hr (.inl rfl)]
    rfl
  · rw [C68_not_recursive_partial P { p with obj := .mk h (.set l) } h l hr (.inr rfl),
      C68_not_recursive_partial P { p with obj := .mk h (.set l') } h l' hr (.inr rfl)]
    rfl

example : ((Tests.printed.asPretty 3 2).unsetFlag .recursive).fmt Tests.P0 = lit "   Sequence" := by
  decide +kernel

/-! ## C70 -/

namespace Spec

/-- The text so far ends a line. -/
def LineStart (t : Bytes) : Prop := t = [] ∨ t.getLast? = some 0x0A

/-- Contents whose first piece of text ends with a newline: what opens a bracket, BMPString and
UniversalString. -/
def EndsLine : Content → Prop
  | .sequence _ | .set _ | .tagged _ _ _ | .bmpString _ | .universalString _ => True
  | _ => False

/-- Contents whose text ends with text made by another crate or by derived code. -/
def OtherText : Content → Prop
  | .optionalSome _ | .unknown _ => True
  | _ => False

end Spec

/-- C70, as intended by a pretty printer: every object and every closing bracket starts a line. -/
def C70Statement : Prop :=
  ∀ (P : PrintDeps) (p : PrettyBer), p.isFlagSet .recursive = true →
    ∀ (a : List Piece) (x : Piece) (b : List Piece), pieces P (leafText P) 0 p.obj = a ++ x :: b →
      LineStart (a.flatMap (render P p.indent p.inc (p.isFlagSet .showHeader)))

/-- C70 is false: in the test of /repo/src/ber/print.rs:204-212 the second INTEGER follows the first
on the same line. -/
theorem C70_same_line_counterexample : ¬ C70Statement := by
  intro h
  have := h Tests.P0 (Tests.printed.asPretty 0 2) rfl
    ((pieces Tests.P0 (leafText Tests.P0) 0 Tests.printed).take 2)
    ⟨1, some (.fromIntSlice [1, 0, 1]), leafText Tests.P0 (.integer [1, 0, 1])⟩
    ((pieces Tests.P0 (leafText Tests.P0) 0 Tests.printed).drop 3) rfl
  revert this
  unfold LineStart
  decide +kernel

theorem getLast?_app (a b : Bytes) (h : b ≠ []) : (a ++ b).getLast? = b.getLast? := by
  rw [List.getLast?_append]
  cases hb : b.getLast? with
  | none => exact absurd (List.getLast?_eq_none_iff.1 hb) h
  | some x => rfl

theorem printUtf16_last (s : Bytes) (ty : String) : (printUtf16 s ty).getLast? = some 0x0A := by
  unfold printUtf16
  split <;> rw [getLast?_app] <;> decide

theorem printUtf32_last (s : Bytes) (ty : String) : (printUtf32 s ty).getLast? = some 0x0A := by
  unfold printUtf32
  split <;> rw [getLast?_app] <;> decide

/-- How the text of a piece ends. -/
def PieceEnd (x : Piece) : Prop :=
  (x.opens = none → ∃ c, x.text.getLast? = some c ∧ c ≠ 0x0A) ∧
  ∀ o, x.opens = some o → (EndsLine o.content → x.text.getLast? = some 0x0A) ∧
    (¬ EndsLine o.content → ¬ OtherText o.content → ∃ c, x.text.getLast? = some c ∧ c ≠ 0x0A)

theorem pieceEnd_open (d : Nat) (o : BerObject) (t s : Bytes) (h : EndsLine o.content)
    (hs : s.getLast? = some 0x0A) : PieceEnd ⟨d, some o, t ++ s⟩ := by
  refine ⟨by simp, fun o' ho => ?_⟩
  obtain rfl : o = o' := by simpa using ho
  refine ⟨fun _ => ?_, fun h' => absurd h h'⟩
  have hne : s ≠ [] := by intro e; rw [e] at hs; cases hs
  exact (getLast?_app t s hne).trans hs

theorem pieceEnd_close (d : Nat) (s : Bytes) (c : UInt8) (hs : s.getLast? = some c)
    (hc : c ≠ 0x0A) : PieceEnd ⟨d, none, s⟩ :=
  ⟨fun _ => ⟨c, hs, hc⟩, by simp⟩

theorem pieceEnd_leaf (d : Nat) (o : BerObject) (s : Bytes) (c : UInt8) (he : ¬ EndsLine o.content)
    (hs : s.getLast? = some c) (hc : c ≠ 0x0A) : PieceEnd ⟨d, some o, s⟩ := by
  refine ⟨by simp, fun o' ho => ?_⟩
  obtain rfl : o = o' := by simpa using ho
  exact ⟨fun h => absurd h he, fun _ _ => ⟨c, hs, hc⟩⟩

theorem pieceEnd_other (d : Nat) (o : BerObject) (s : Bytes) (he : ¬ EndsLine o.content)
    (ho : OtherText o.content) : PieceEnd ⟨d, some o, s⟩ := by
  refine ⟨by simp, fun o' h => ?_⟩
  obtain rfl : o = o' := by simpa using h
  exact ⟨fun h => absurd h he, fun _ h => absurd ho h⟩

theorem printStr_last (k : StrKind) (s : Bytes) : (printStr k s).getLast? = some 0x29 := by
  unfold printStr
  cases k <;> (dsimp only; rw [getLast?_app] <;> decide)

mutual
theorem pieces_last (P : PrintDeps) (d : Nat) : ∀ o : BerObject,
    ∀ x ∈ pieces P (leafText P) d o, PieceEnd x
  | .mk h c => by simp only [pieces]; exact piecesC_last P d h c
theorem piecesC_last (P : PrintDeps) (d : Nat) (h : Header) : ∀ c : Content,
    ∀ x ∈ piecesC P (leafText P) d h c, PieceEnd x
  | .sequence l => by
    intro x hx
    simp only [piecesC, List.mem_cons, List.mem_append, List.not_mem_nil, or_false] at hx
    rcases hx with rfl | hx | rfl
    · exact pieceEnd_open _ _ _ _ trivial (by decide)
    · exact piecesL_last P (d + 1) l x hx
    · exact pieceEnd_close _ _ 0x5D (by decide) (by decide)
  | .set l => by
    intro x hx
    simp only [piecesC, List.mem_cons, List.mem_append, List.not_mem_nil, or_false] at hx
    rcases hx with rfl | hx | rfl
    · exact pieceEnd_open _ _ _ _ trivial (by decide)
    · exact piecesL_last P (d + 1) l x hx
    · exact pieceEnd_close _ _ 0x5D (by decide) (by decide)
  | .tagged k t o => by
    intro x hx
    simp only [piecesC, List.mem_cons, List.mem_append, List.not_mem_nil, or_false] at hx
    rcases hx with rfl | hx | rfl
    · exact pieceEnd_open _ _ _ _ trivial (by decide)
    · exact pieces_last P (d + 1) o x hx
    · exact pieceEnd_close _ _ 0x7D (by decide) (by decide)
  | .bmpString s => by
    intro x hx
    simp only [piecesC, List.mem_singleton] at hx
    subst hx
    exact pieceEnd_open _ _ [] _ trivial (printUtf16_last s _)
  | .universalString s => by
    intro x hx
    simp only [piecesC, List.mem_singleton] at hx
    subst hx
    exact pieceEnd_open _ _ [] _ trivial (printUtf32_last s _)
  | .optionalSome _ | .unknown _ => by
    intro x hx
    simp only [piecesC, List.mem_singleton] at hx
    subst hx
    exact pieceEnd_other _ _ _ id trivial
  | .endOfContent => by
    intro x hx
    simp only [piecesC, List.mem_singleton] at hx
    subst hx
    exact pieceEnd_leaf _ _ _ 0x74 id (by simp only [leafText, fmtContent]; decide) (by decide)
  | .null => by
    intro x hx
    simp only [piecesC, List.mem_singleton] at hx
    subst hx
    exact pieceEnd_leaf _ _ _ 0x6C id (by simp only [leafText, fmtContent]; decide) (by decide)
  | .optionalNone => by
    intro x hx
    simp only [piecesC, List.mem_singleton] at hx
    subst hx
    exact pieceEnd_leaf _ _ _ 0x45 id (by simp only [leafText, fmtContent]; decide) (by decide)
  | .str k s => by
    intro x hx
    simp only [piecesC, List.mem_singleton] at hx
    subst hx
    exact pieceEnd_leaf _ _ _ 0x29 id (by simp only [leafText, fmtContent]; exact printStr_last k s)
      (by decide)
  | .boolean _ | .integer _ | .octetString _ | .enum _ | .oid _ | .relativeOid _ | .utcTime _
  | .generalizedTime _ | .bitString _ _ => by
    intro x hx
    simp only [piecesC, List.mem_singleton] at hx
    subst hx
    refine pieceEnd_leaf _ _ _ 0x29 id ?_ (by decide)
    simp only [leafText, fmtContent]
    rw [getLast?_app] <;> decide
theorem piecesL_last (P : PrintDeps) (d : Nat) : ∀ l : List BerObject,
    ∀ x ∈ piecesL P (leafText P) d l, PieceEnd x
  | [] => by simp [piecesL]
  | o :: os => by
    intro x hx
    simp only [piecesL, List.mem_append] at hx
    rcases hx with hx | hx
    · exact pieces_last P d o x hx
    · exact piecesL_last P d os x hx
end

/-- C70, what holds: a piece starts a line if the piece before opens a bracket (so it is the first
element of its container) or is a BMPString or UniversalString; a piece after a closing bracket or
after any other content does not.  Missing: after optional and unknown contents this depends on text
made by other crates; and, as the counterexample shows, a line start for the other pieces. -/
theorem C70_line_starts_partial (P : PrintDeps) (p : PrettyBer) (a : List Piece) (y x : Piece)
    (b : List Piece) (h : pieces P (leafText P) 0 p.obj = a ++ y :: x :: b)
    (ho : ∀ o, y.opens = some o → ¬ OtherText o.content) :
    LineStart ((a ++ [y]).flatMap (render P p.indent p.inc (p.isFlagSet .showHeader))) ↔
      ∃ o, y.opens = some o ∧ EndsLine o.content := by
  obtain ⟨h1, h2⟩ := pieces_last P 0 p.obj y (by rw [h]; simp)
  have key : ∀ c, y.text.getLast? = some c → ((a ++ [y]).flatMap
      (render P p.indent p.inc (p.isFlagSet .showHeader))).getLast? = some c := by
    intro c hc
    have hne : y.text ≠ [] := by intro e; rw [e] at hc; cases hc
    rw [List.flatMap_append, List.flatMap_singleton]
    unfold render
    rw [← List.append_assoc, getLast?_app _ _ hne, hc]
  have no : (∃ c, y.text.getLast? = some c ∧ c ≠ 0x0A) →
      ¬ LineStart ((a ++ [y]).flatMap (render P p.indent p.inc (p.isFlagSet .showHeader))) := by
    rintro ⟨c, hc, hn⟩ hl
    have := key c hc
    rcases hl with hl | hl
    · rw [hl] at this; cases this
    · rw [hl] at this; exact hn (Option.some.inj this).symm
  constructor
  · intro hl
    cases hy : y.opens with
    | none => exact absurd hl (no (h1 hy))
    | some o =>
      refine ⟨o, rfl, Classical.byContradiction fun he => ?_⟩
      exact no ((h2 o hy).2 he (ho o hy)) hl
  · rintro ⟨o, hy, he⟩
    exact .inr (key _ ((h2 o hy).1 he))

/-- The first element of a SEQUENCE. -/
example := C70_line_starts_partial Tests.P0 ((BerObject.fromSeq [.fromObj .null]).asPretty 0 2) []
  ⟨0, some (.fromSeq [.fromObj .null]), lit "Sequence[\n"⟩ ⟨1, some (.fromObj .null), leafText Tests.P0 .null⟩ [⟨0, none, lit "]"⟩]
  rfl (fun o h => by cases h; exact id)

/-! ## C71 -/

namespace Spec

/-- UTF-32 encoding of a code point, most significant octet first. -/
def utf32Enc (c : Nat) : Bytes :=
  [UInt8.ofNat (c / 16777216), UInt8.ofNat (c / 65536 % 256), UInt8.ofNat (c / 256 % 256),
    UInt8.ofNat (c % 256)]

end Spec

theorem encodeUtf8_eq (c : Nat) : encodeUtf8 c = utf8Enc c := rfl

theorem decodeUtf16_enc (c : Nat) (hc : IsScalar c) (rest : Bytes) :
    decodeUtf16 (utf16Units (utf16Enc c ++ rest)) =
      (decodeUtf16 (utf16Units rest)).map (c :: ·) := by
  unfold IsScalar at hc
  unfold utf16Enc
  by_cases h : c < 0x10000
  · have e1 := u8_ofNat_toNat (c / 256) (by omega)
    have e2 := u8_ofNat_toNat (c % 256) (by omega)
    simp only [h, if_true, List.cons_append, List.nil_append, utf16Units, e1, e2]
    rw [show c / 256 * 256 + c % 256 = c by omega, decodeUtf16.eq_def]
    dsimp only
    rw [if_pos]
    simp only [Bool.or_eq_true, decide_eq_true_eq]
    omega
  · have e1 := u8_ofNat_toNat ((0xD800 + (c - 0x10000) / 1024) / 256) (by omega)
    have e2 := u8_ofNat_toNat ((0xD800 + (c - 0x10000) / 1024) % 256) (by omega)
    have e3 := u8_ofNat_toNat ((0xDC00 + (c - 0x10000) % 1024) / 256) (by omega)
    have e4 := u8_ofNat_toNat ((0xDC00 + (c - 0x10000) % 1024) % 256) (by omega)
    simp only [h, if_false, List.cons_append, List.nil_append, utf16Units, e1, e2, e3, e4]
    have f1 : (0xD800 + (c - 0x10000) / 1024) / 256 * 256 + (0xD800 + (c - 0x10000) / 1024) % 256 =
      0xD800 + (c - 0x10000) / 1024 := Nat.div_add_mod' _ _
    have f2 : (0xDC00 + (c - 0x10000) % 1024) / 256 * 256 + (0xDC00 + (c - 0x10000) % 1024) % 256 =
      0xDC00 + (c - 0x10000) % 1024 := Nat.div_add_mod' _ _
    rw [f1, f2]
    generalize ha : 0xD800 + (c - 0x10000) / 1024 = a
    generalize hb : 0xDC00 + (c - 0x10000) % 1024 = b
    rw [decodeUtf16.eq_def]
    dsimp only
    rw [if_neg (by simp only [Bool.or_eq_true, decide_eq_true_eq]; omega), if_neg (by omega),
      if_pos (by omega), show 0x10000 + (a - 0xD800) * 1024 + (b - 0xDC00) = c by omega]

theorem decodeUtf16_flatMap (cs : List Nat) (h : ∀ c ∈ cs, IsScalar c) :
    decodeUtf16 (utf16Units (cs.flatMap utf16Enc)) = some cs := by
  induction cs with
  | nil => rfl
  | cons c cs ih =>
    rw [List.flatMap_cons, decodeUtf16_enc c (h c (by simp)), ih fun x hx => h x (by simp [hx])]
    rfl

theorem decodeUtf16_valid : ∀ (n : Nat) (l : List Nat), l.length ≤ n →
    (decodeUtf16 l).isSome = validUtf16 l := by
  intro n
  induction n with
  | zero =>
    intro l hl
    obtain rfl : l = [] := List.length_eq_zero_iff.1 (by omega)
    rfl
  | succ n ih =>
    intro l hl
    cases l with
    | nil => rfl
    | cons u rest =>
      simp only [List.length_cons] at hl
      rw [decodeUtf16.eq_def, validUtf16.eq_def]
      dsimp only
      split
      · rw [Option.isSome_map, ih rest (by omega)]
      · split
        · rfl
        · cases rest with
          | nil => rfl
          | cons v rest' =>
            simp only [List.length_cons] at hl
            dsimp only
            split
            · rename_i hv
              rw [Option.isSome_map, ih rest' (by omega)]
              simp [hv]
            · rename_i hv
              simp only [Option.isSome_none]
              symm
              rw [Bool.and_eq_false_iff]
              left
              simpa using hv

/-- C71: the text of a BMPString is its characters, re-encoded in UTF-8, between quotes. -/
theorem C71_bmp_text (P : PrintDeps) (cs : List Nat) (h : ∀ c ∈ cs, IsScalar c) :
    leafText P (.bmpString (cs.flatMap utf16Enc)) =
      lit "BmpString(\"" ++ cs.flatMap utf8Enc ++ lit "\")\n" := by
  simp only [leafText, fmtContent, printUtf16, decodeUtf16_flatMap cs h]
  rfl

/-- `A` and an emoji. -/
example := C71_bmp_text Tests.P0 [0x41, 0x1F600] (by simp [IsScalar])

/-- C71, what holds for BMPString: octets that are not UTF-16 are reported as such, and only those, if their number
is even.  Missing: odd numbers (C71_bmp_cut). -/
theorem C71_bmp_error_partial (P : PrintDeps) (s : Bytes) (he : s.length % 2 = 0) :
    leafText P (.bmpString s) =
      lit "BmpString(Err(FromUtf16Error(()))) <error decoding utf32 string>\n" ↔ ¬ IsUtf16 s := by
  constructor
  · rintro h ⟨cs, hc, rfl⟩
    rw [C71_bmp_text P cs hc] at h
    have := congrArg (fun l => l[10]?) h
    revert this
    rw [List.append_assoc, List.getElem?_append_left (by decide)]
    decide
  · intro h
    have : (decodeUtf16 (utf16Units s)) = none := by
      cases hd : decodeUtf16 (utf16Units s) with
      | none => rfl
      | some l =>
        have hv := decodeUtf16_valid _ (utf16Units s) (Nat.le_refl _)
        rw [hd] at hv
        exact absurd ((validUtf16_iff s).1 ⟨he, hv.symm⟩) h
    simp only [leafText, fmtContent, printUtf16, this]
    decide

/-- A lone surrogate. -/
example := (C71_bmp_error_partial Tests.P0 [0x00, 0x41, 0xD8, 0x3D] rfl).1 (by decide +kernel)

/-- C71: hence a BMPString returned by the parser (any node of the tree) is printed as text. -/
theorem C71_bmp_parsed (D : Deps) (P : PrintDeps) (i rem : Bytes) (o o' : BerObject) (s : Bytes)
    (hr : Returned D i rem o) (hn : Node o' o) (hs : o'.content = .bmpString s) :
    ∃ cs : List Nat, (∀ c ∈ cs, IsScalar c) ∧ s = cs.flatMap utf16Enc ∧
      leafText P o'.content = lit "BmpString(\"" ++ cs.flatMap utf8Enc ++ lit "\")\n" := by
  obtain ⟨cs, h1, h2⟩ : IsUtf16 s := (C25_bmp_verbatim D i rem o o' s hr hn hs).2.2
  exact ⟨cs, h1, h2, by rw [hs, h2]; exact C71_bmp_text P cs h1⟩

example := C71_bmp_parsed Tests.D0 Tests.P0 [0x30, 0x04, 0x1e, 0x02, 0x00, 0x41, 9] [9] _
  (.mk ⟨.universal, false, 30, .definite 2, some [30]⟩ (.bmpString [0x00, 0x41])) _ (returned_ber rfl)
  (.seq _ _ _ (List.mem_singleton.2 rfl) .self) rfl

theorem utf32Units_enc (c : Nat) (hc : IsScalar c) (rest : Bytes) :
    utf32Units (utf32Enc c ++ rest) = c :: utf32Units rest := by
  unfold IsScalar at hc
  have e1 := u8_ofNat_toNat (c / 16777216) (by omega)
  have e2 := u8_ofNat_toNat (c / 65536 % 256) (by omega)
  have e3 := u8_ofNat_toNat (c / 256 % 256) (by omega)
  have e4 := u8_ofNat_toNat (c % 256) (by omega)
  simp only [utf32Enc, List.cons_append, List.nil_append, utf32Units, e1, e2, e3, e4]
  congr 1
  omega

theorem utf32Units_flatMap (cs : List Nat) (h : ∀ c ∈ cs, IsScalar c) :
    utf32Units (cs.flatMap utf32Enc) = cs := by
  induction cs with
  | nil => rfl
  | cons c cs ih =>
    rw [List.flatMap_cons, utf32Units_enc c (h c (by simp)), ih fun x hx => h x (by simp [hx])]

theorem isScalarValue_iff (c : Nat) : isScalarValue c = true ↔ IsScalar c := by
  unfold isScalarValue IsScalar
  simp only [Bool.or_eq_true, Bool.and_eq_true, decide_eq_true_eq]
  omega

theorem utf32_sound : ∀ (n : Nat) (s : Bytes), s.length ≤ n → s.length % 4 = 0 →
    (utf32Units s).flatMap utf32Enc = s := by
  intro n
  induction n with
  | zero =>
    intro s hs _
    obtain rfl : s = [] := List.length_eq_zero_iff.1 (by omega)
    rfl
  | succ n ih =>
    intro s hs he
    match s, hs, he with
    | [], _, _ => rfl
    | [_], _, he => simp at he
    | [_, _], _, he => simp at he
    | [_, _, _], _, he => simp at he
    | a :: b :: c :: d :: rest, hs, he =>
      simp only [List.length_cons] at hs he
      have ha := a.toNat_lt
      have hb := b.toNat_lt
      have hc := c.toNat_lt
      have hd := d.toNat_lt
      rw [utf32Units, List.flatMap_cons, ih rest (by omega) (by omega), utf32Enc,
        u8_eq (a := a) (by omega), u8_eq (a := b) (by omega), u8_eq (a := c) (by omega),
        u8_eq (a := d) (by omega)]
      rfl

/-- C71: the text of a UniversalString is its characters, re-encoded in UTF-8, between quotes. -/
theorem C71_universal_text (P : PrintDeps) (cs : List Nat) (h : ∀ c ∈ cs, IsScalar c) :
    leafText P (.universalString (cs.flatMap utf32Enc)) =
      lit "UniversalString(\"" ++ cs.flatMap utf8Enc ++ lit "\")\n" := by
  have : cs.all isScalarValue = true :=
    List.all_eq_true.2 fun c hc => (isScalarValue_iff c).2 (h c hc)
  simp only [leafText, fmtContent, printUtf32, utf32Units_flatMap cs h, this, if_true]
  rfl

example := C71_universal_text Tests.P0 [0x41, 0x1F600] (by simp [IsScalar])

/-- C71, what holds for UniversalString: octets that are not UTF-32 are written as a list of numbers, if their number
is divisible by four.  Missing: other numbers (C71_universal_cut, C71_universal_exact). -/
theorem C71_universal_error_partial (P : PrintDeps) (s : Bytes) (he : s.length % 4 = 0)
    (h : ¬ ∃ cs : List Nat, (∀ c ∈ cs, IsScalar c) ∧ s = cs.flatMap utf32Enc) :
    leafText P (.universalString s) =
      lit "UniversalString(" ++ debugBytes s ++ lit ") <error decoding utf32 string>\n" := by
  have : (utf32Units s).all isScalarValue = false := by
    cases hv : (utf32Units s).all isScalarValue with
    | false => rfl
    | true =>
      refine absurd ⟨utf32Units s, fun c hc => ?_, (utf32_sound _ s (Nat.le_refl _) he).symm⟩ h
      exact (isScalarValue_iff c).1 (List.all_eq_true.1 hv c hc)
  simp only [leafText, fmtContent, printUtf32, this, Bool.false_eq_true, if_false]
  rfl

theorem utf16Units_cut : ∀ (n : Nat) (s : Bytes), s.length ≤ n → utf16Units s = utf16Units (s.take (s.length / 2 * 2)) := by
  intro n
  induction n with
  | zero =>
    intro s hs
    obtain rfl : s = [] := List.length_eq_zero_iff.1 (by omega)
    rfl
  | succ n ih =>
    intro s hs
    match s, hs with
    | [], _ => rfl
    | [_], _ => simp [utf16Units]
    | a :: b :: rest, hs =>
      simp only [List.length_cons] at hs
      have : (a :: b :: rest).length / 2 * 2 = rest.length / 2 * 2 + 2 := by
        simp only [List.length_cons]; omega
      rw [this, List.take_succ_cons, List.take_succ_cons, utf16Units, utf16Units, ih rest (by omega)]

theorem utf32Units_cut : ∀ (n : Nat) (s : Bytes), s.length ≤ n → utf32Units s = utf32Units (s.take (s.length / 4 * 4)) := by
  intro n
  induction n with
  | zero =>
    intro s hs
    obtain rfl : s = [] := List.length_eq_zero_iff.1 (by omega)
    rfl
  | succ n ih =>
    intro s hs
    match s, hs with
    | [], _ => rfl
    | [_], _ => simp [utf32Units]
    | [_, _], _ => simp [utf32Units]
    | [_, _, _], _ => simp [utf32Units]
    | a :: b :: c :: d :: rest, hs =>
      simp only [List.length_cons] at hs
      have : (a :: b :: c :: d :: rest).length / 4 * 4 = rest.length / 4 * 4 + 4 := by
        simp only [List.length_cons]; omega
      rw [this, List.take_succ_cons, List.take_succ_cons, List.take_succ_cons, List.take_succ_cons, utf32Units,
        utf32Units, ih rest (by omega)]

/-- C71: the last of an odd number of octets of a BMPString is not looked at. -/
theorem C71_bmp_cut (P : PrintDeps) (s : Bytes) :
    leafText P (.bmpString s) = leafText P (.bmpString (s.take (s.length / 2 * 2))) := by
  simp only [leafText, fmtContent, printUtf16]
  rw [utf16Units_cut _ s (Nat.le_refl _)]

/-- C71: up to three octets at the end of a UniversalString are ignored, and the text is the one of the characters
before them; otherwise all octets are written as a list of numbers. -/
theorem C71_universal_exact (P : PrintDeps) (s : Bytes) :
    (∀ (cs : List Nat) (t : Bytes), (∀ c ∈ cs, IsScalar c) → t.length < 4 → s = cs.flatMap utf32Enc ++ t →
      leafText P (.universalString s) = lit "UniversalString(\"" ++ cs.flatMap utf8Enc ++ lit "\")\n") ∧
    ((¬ ∃ (cs : List Nat) (t : Bytes), (∀ c ∈ cs, IsScalar c) ∧ t.length < 4 ∧ s = cs.flatMap utf32Enc ++ t) →
      leafText P (.universalString s) =
        lit "UniversalString(" ++ debugBytes s ++ lit ") <error decoding utf32 string>\n") := by
  constructor
  · rintro cs t hcs ht rfl
    have hl : (cs.flatMap utf32Enc).length = 4 * cs.length := by
      clear hcs
      induction cs with
      | nil => rfl
      | cons c cs ih => simp only [List.flatMap_cons, List.length_append, ih, List.length_cons, utf32Enc, List.length_nil]; omega
    have hu : utf32Units (cs.flatMap utf32Enc ++ t) = cs := by
      rw [utf32Units_cut _ _ (Nat.le_refl _), List.take_left', utf32Units_flatMap cs hcs]
      simp only [List.length_append, hl]; omega
    have : cs.all isScalarValue = true :=
      List.all_eq_true.2 fun c hc => (isScalarValue_iff c).2 (hcs c hc)
    simp only [leafText, fmtContent, printUtf32, hu, this, if_true]
    rfl
  · intro h
    have : (utf32Units s).all isScalarValue = false := by
      cases hv : (utf32Units s).all isScalarValue with
      | false => rfl
      | true =>
        refine absurd ⟨utf32Units s, s.drop (s.length / 4 * 4), fun c hc => ?_, ?_, ?_⟩ h
        · exact (isScalarValue_iff c).1 (List.all_eq_true.1 hv c hc)
        · rw [List.length_drop]; omega
        · rw [utf32Units_cut _ s (Nat.le_refl _), utf32_sound _ (s.take (s.length / 4 * 4)) (Nat.le_refl _)
            (by rw [List.length_take]; omega), List.take_append_drop]
    simp only [leafText, fmtContent, printUtf32, this, Bool.false_eq_true, if_false]
    rfl

/-- Two octets after the character are ignored. -/
example := (C71_universal_exact Tests.P0 [0, 0, 0, 0x41, 7, 7]).1 [0x41] [7, 7] (by simp [IsScalar]) (by decide) (by decide +kernel)

/-- A surrogate is no character. -/
theorem surrogate_not_utf32 : ¬ ∃ (cs : List Nat) (t : Bytes), (∀ c ∈ cs, IsScalar c) ∧ t.length < 4 ∧
    [0, 0, 0xD8, 0] = cs.flatMap utf32Enc ++ t := by
  rintro ⟨cs, t, h1, h2, h3⟩
  have h4 : leafText Tests.P0 (.universalString [0, 0, 0xD8, 0]) = _ := (C71_universal_exact Tests.P0 _).1 cs t h1 h2 h3
  rw [show leafText Tests.P0 (.universalString [0, 0, 0xD8, 0]) =
    lit "UniversalString(" ++ (lit "[0, 0, 216, 0]) <error decoding utf32 string>\n") by decide +kernel, List.append_assoc] at h4
  rw [show lit "UniversalString(\"" = lit "UniversalString(" ++ lit "\"" by decide +kernel, List.append_assoc] at h4
  have h5 := List.append_cancel_left h4
  rw [show lit "[0, 0, 216, 0]) <error decoding utf32 string>\n" =
    0x5b :: lit "0, 0, 216, 0]) <error decoding utf32 string>\n" by decide +kernel, show lit "\"" = [0x22] by decide +kernel] at h5
  cases h5

/-- `C71_universal_error_partial` applies to it. -/
example := C71_universal_error_partial Tests.P0 [0, 0, 0xD8, 0] rfl fun ⟨cs, h1, h2⟩ =>
  surrogate_not_utf32 ⟨cs, [], h1, by decide, by simpa using h2⟩

/-- C71 in full, for UniversalString: contents that are not UTF-32 are printed with the error text. -/
def C71Statement : Prop :=
  ∀ (D : Deps) (P : PrintDeps) (i rem s : Bytes) (o : BerObject), parseBer D i = .ok (rem, o) →
    o.content = .universalString s → (¬ ∃ cs : List Nat, (∀ c ∈ cs, IsScalar c) ∧ s = cs.flatMap utf32Enc) →
      leafText P o.content = lit "UniversalString(" ++ debugBytes s ++ lit ") <error decoding utf32 string>\n"

/-- C71 is false: the fifth octet of a UniversalString accepted by `parse_ber` and `parse_der` is not printed, and
nothing tells that it is there (finding 55). -/
theorem C71_universal_cut_counterexample : ¬ C71Statement ∧
    ∀ (D : Deps) (P : PrintDeps), ∃ o, parseBer D [0x1c, 0x05, 0x00, 0x00, 0x00, 0x41, 0xff] = .ok ([], o) ∧
      parseDer D [0x1c, 0x05, 0x00, 0x00, 0x00, 0x41, 0xff] = .ok ([], o) ∧
      leafText P o.content = lit "UniversalString(\"A\")\n" := by
  constructor
  · intro h
    have := h Tests.D0 Tests.P0 [0x1c, 0x01, 0x41] [] [0x41] _ rfl rfl (by
      rintro ⟨cs, -, hc⟩
      cases cs with
      | nil => simp at hc
      | cons c cs => simp [utf32Enc] at hc)
    revert this
    decide +kernel
  · intro D P
    exact ⟨_, rfl, rfl, rfl⟩

example : leafText Tests.P0 (.bmpString [0x00, 0x41, 0xD8, 0x3D, 0xDE, 0x00]) =
    lit "BmpString(\"A" ++ [0xF0, 0x9F, 0x98, 0x80] ++ lit "\")\n" := by decide +kernel

example : leafText Tests.P0 (.universalString [0, 1, 0xF6, 0]) =
    lit "UniversalString(\"" ++ [0xF0, 0x9F, 0x98, 0x80] ++ lit "\")\n" := by decide +kernel

example : leafText Tests.P0 (.universalString [0, 0, 0xD8, 0]) =
    lit "UniversalString([0, 0, 216, 0]) <error decoding utf32 string>\n" := by decide +kernel

end Verif
