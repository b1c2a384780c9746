import Verif.Visit
import Verif.Print
import Verif.Tests
import Verif.Props.Contents
/-!
# Access to objects: C50 to C55

Iterators and indexing, immutable and mutable visitors, printer flags.
-/
namespace Verif
open Outcome Spec

namespace Spec

/-- The children of an object: the elements of a SEQUENCE or SET, nothing for other contents. -/
def children : BerObject → List BerObject
  | .mk _ (.sequence l) => l
  | .mk _ (.set l) => l
  | _ => []

/-- The first `k` answers of an iterator. -/
def answers {ι α : Type} (next : ι → Option α × ι) : Nat → ι → List (Option α)
  | 0, _ => []
  | k + 1, it => (next it).1 :: answers next k (next it).2

end Spec

/-! ## C50 -/

theorem refIter_next (o : BerObject) (i : Nat) :
    RefIter.next ⟨o, i⟩ = ((children o)[i]?, ⟨o, i + 1⟩) := by
  obtain ⟨h, c⟩ := o
  cases c <;> simp [RefIter.next, children, BerObject.content] <;> omega

theorem refIter_answers (o : BerObject) (k i : Nat) :
    answers RefIter.next k ⟨o, i⟩ = (List.range k).map fun j => (children o)[i + j]? := by
  induction k generalizing i with
  | zero => rfl
  | succ k ih =>
    rw [answers, refIter_next, ih, List.range_succ_eq_map, List.map_cons, List.map_map]
    refine congr (congrArg List.cons rfl) (List.map_congr_left fun j _ => ?_)
    simp only [Function.comp_apply, Nat.add_succ, Nat.succ_add]

/-- C50: however often `next` is called, the answers of `ref_iter` are the children in order, and
`None` from then on. -/
theorem C50_ref_iter (o : BerObject) (k : Nat) :
    answers RefIter.next k o.refIter = (List.range k).map fun j => (children o)[j]? := by
  rw [BerObject.refIter, refIter_answers]; simp

/-- C50: indexing succeeds exactly at the positions of the children, with that child. -/
theorem C50_index (o : BerObject) (i : Nat) (x : BerObject) :
    o.index i = .ok x ↔ (children o)[i]? = some x := by
  have key : ∀ l : List BerObject,
      (if i < l.length then (match l[i]? with | some x => .ok x | none => .panic) else .panic :
        Outcome Empty BerObject) = .ok x ↔ l[i]? = some x := by
    intro l
    by_cases h : i < l.length
    · rw [if_pos h, List.getElem?_eq_getElem h]; simp
    · rw [if_neg h, List.getElem?_eq_none (by omega)]; simp
  obtain ⟨h, c⟩ := o
  cases c <;> simp [BerObject.index, children, BerObject.content] <;> exact key _

/-- C50: everywhere else indexing panics (there is no other outcome). -/
theorem C50_index_panics (o : BerObject) (i : Nat) :
    o.index i = .panic ↔ (children o).length ≤ i := by
  have key : ∀ l : List BerObject,
      (if i < l.length then (match l[i]? with | some x => .ok x | none => .panic) else .panic :
        Outcome Empty BerObject) = .panic ↔ l.length ≤ i := by
    intro l
    by_cases h : i < l.length
    · rw [if_pos h, List.getElem?_eq_getElem h]
      simp; exact h
    · rw [if_neg h]; simp; omega
  obtain ⟨h, c⟩ := o
  cases c <;> first | exact key _ | exact ⟨fun _ => Nat.zero_le _, fun _ => rfl⟩

namespace Tests
/-- SEQUENCE { INTEGER 1, SET { NULL } }. -/
def nested : BerObject :=
  .mk (h .universal true 16 7 [0x30])
    (.sequence [.mk (h .universal false 2 1 [0x02]) (.integer [1]),
      .mk (h .universal true 17 2 [0x31]) (.set [.mk (h .universal false 5 0 [0x05]) .null])])
end Tests

example : (answers RefIter.next 4 Tests.nested.refIter).map Option.isSome =
    [true, true, false, false] := rfl
example : Tests.nested.index 2 = .panic ∧ ∃ x, Tests.nested.index 1 = .ok x := ⟨rfl, _, rfl⟩

/-! ## C51 -/

/-- C51 as claimed: `into_iter` yields the children of a SEQUENCE or SET, and only the object itself
for other contents. -/
def C51Statement : Prop :=
  ∀ (o : BerObject) (k : Nat), answers IntoIter.next k o.intoIter =
    (List.range k).map fun j =>
      (match o.content with
        | .sequence l => l
        | .set l => l
        | _ => [o])[j]?

theorem intoIter_next (o : BerObject) (i : Nat) :
    IntoIter.next ⟨o, i⟩ =
      ((if children o = [] then [o] else children o)[i]?, ⟨o, i + 1⟩) := by
  have key : ∀ l : List BerObject,
      (if i < l.length then l[i]? else if i = 0 then some o else none) =
        (if l = [] then [o] else l)[i]? := by
    intro l
    cases l with
    | nil => cases i <;> simp
    | cons a l =>
      by_cases h : i < (a :: l).length
      · rw [if_pos h, if_neg (by simp)]
      · have h0 : ¬ i = 0 := by rintro rfl; simp at h
        rw [if_neg h, if_neg h0, if_neg (by simp), List.getElem?_eq_none (by omega)]
  have key0 : (if i = 0 then some o else none) = [o][i]? := by cases i <;> simp
  obtain ⟨h, c⟩ := o
  cases c <;> first
    | exact congrArg (fun x => (x, _)) (key _)
    | exact congrArg (fun x => (x, _)) key0

theorem intoIter_answers (o : BerObject) (k i : Nat) :
    answers IntoIter.next k ⟨o, i⟩ = (List.range k).map fun j =>
      (if children o = [] then [o] else children o)[i + j]? := by
  induction k generalizing i with
  | zero => rfl
  | succ k ih =>
    rw [answers, intoIter_next, ih, List.range_succ_eq_map, List.map_cons, List.map_map]
    refine congr (congrArg List.cons rfl) (List.map_congr_left fun j _ => ?_)
    simp only [Function.comp_apply, Nat.add_succ, Nat.succ_add]

/-- C51, what the code does: the children when there is one, otherwise the object itself, once;
then `None` for ever. -/
theorem C51_into_iter_partial (o : BerObject) (k : Nat) :
    answers IntoIter.next k o.intoIter = (List.range k).map fun j =>
      (if children o = [] then [o] else children o)[j]? := by
  rw [BerObject.intoIter, intoIter_answers]; simp

/-- C51 is false: the iterator of an empty SEQUENCE yields the SEQUENCE. -/
theorem C51_empty_sequence_counterexample : ¬ C51Statement := by
  intro H
  have h := H (.mk (Tests.h .universal true 16 0 [0x30]) (.sequence [])) 1
  exact absurd (show some _ = none from (List.cons.inj h).1) (by simp)

/-- C51 holds outside that case. -/
theorem C51_holds_iff (o : BerObject) :
    (∀ k, answers IntoIter.next k o.intoIter = (List.range k).map fun j =>
      (match o.content with
        | .sequence l => l
        | .set l => l
        | _ => [o])[j]?) ↔ o.content ≠ .sequence [] ∧ o.content ≠ .set [] := by
  constructor
  · intro H
    have h := H 1
    rw [C51_into_iter_partial] at h
    have h1 := (List.cons.inj h).1
    obtain ⟨hd, c⟩ := o
    constructor <;> · intro hc; cases hc; simp [children, BerObject.content] at h1
  · rintro ⟨h1, h2⟩ k
    rw [C51_into_iter_partial]
    obtain ⟨hd, c⟩ := o
    cases c <;> simp_all [children, BerObject.content]

example : (answers IntoIter.next 4 Tests.nested.intoIter).map Option.isSome =
    [true, true, false, false] := rfl

/-! ## C52 -/

namespace Spec

mutual
/-- The objects reached through SEQUENCE and SET, each before its children, children in order, with
their depths. -/
def preorder : BerObject → Nat → List (BerObject × Nat)
  | .mk h c, d => (.mk h c, d) :: preorderC c d
/-- The part below a content. -/
def preorderC : Content → Nat → List (BerObject × Nat)
  | .sequence l, d => preorderL l (d + 1)
  | .set l, d => preorderL l (d + 1)
  | _, _ => []
/-- A list of siblings. -/
def preorderL : List BerObject → Nat → List (BerObject × Nat)
  | [], _ => []
  | o :: os, d => preorder o d ++ preorderL os d
end

/-- Names of the callbacks by universal tag number. -/
def cbOfTag : Nat → Option CbName
  | 0 => some .endofcontent
  | 1 => some .boolean
  | 2 => some .integer
  | 3 => some .bitstring
  | 4 => some .octetstring
  | 5 => some .null
  | 6 => some .oid
  | 7 => some .objectdescriptor
  | 10 => some .enum
  | 12 => some .utf8string
  | 13 => some .relativeOid
  | 16 => some .sequence
  | 17 => some .set
  | 18 => some .numericstring
  | 19 => some .printablestring
  | 20 => some .teletexstring
  | 21 => some .videotextstring
  | 22 => some .ia5string
  | 23 => some .utctime
  | 24 => some .generalizedtime
  | 25 => some .graphicstring
  | 26 => some .visiblestring
  | 27 => some .generalstring
  | 28 => some .universalstring
  | 30 => some .bmpstring
  | _ => none

/-- The two calls made for one object: `visit_ber`, then the type-specific callback. -/
def calls {σ : Type} (v : Visitor σ) (s : σ) (e : BerObject × Nat) : σ :=
  v.callback (cbName e.1.content) e.1.content e.2 (v.visitBer e.1 e.2 s)

end Spec

mutual
theorem visitObj_fold {σ : Type} (v : Visitor σ) (o : BerObject) (d : Nat) (s : σ) :
    visitObj v o d s = (preorder o d).foldl (calls v) s := by
  match o with
  | .mk h c =>
    rw [visitObj, preorder, List.foldl_cons]
    exact visitContent_fold v c d _
theorem visitContent_fold {σ : Type} (v : Visitor σ) (c : Content) (d : Nat) (s : σ) :
    visitContent v c d s = (preorderC c d).foldl (calls v) (v.callback (cbName c) c d s) := by
  match c with
  | .sequence l => simp only [visitContent, preorderC, cbName]; exact visitList_fold v l _ _
  | .set l => simp only [visitContent, preorderC, cbName]; exact visitList_fold v l _ _
  | .boolean _ | .integer _ | .bitString _ _ | .octetString _ | .null | .enum _ | .oid _
  | .relativeOid _ | .str _ _ | .utcTime _ | .generalizedTime _ | .bmpString _
  | .universalString _ | .optionalNone | .optionalSome _ | .tagged _ _ _ | .endOfContent
  | .unknown _ => simp only [visitContent, preorderC, List.foldl_nil]
theorem visitList_fold {σ : Type} (v : Visitor σ) (l : List BerObject) (d : Nat) (s : σ) :
    visitList v l d s = (preorderL l d).foldl (calls v) s := by
  match l with
  | [] => rfl
  | o :: os =>
    rw [visitList, preorderL, List.foldl_append, visitObj_fold v o, visitList_fold v os]
end

/-- C52: whatever the visitor does, a traversal starting at depth `d` makes for each object of the
pre-order listing, in that order and with its depth, the calls `visit_ber` and the callback of its
type, and no other call. -/
theorem C52_preorder {σ : Type} (v : Visitor σ) (o : BerObject) (d : Nat) (s : σ) :
    v.runAt o d s = (preorder o d).foldl (calls v) s :=
  visitObj_fold v o d s

/-- C52: `run` starts at depth 0. -/
theorem C52_run {σ : Type} (v : Visitor σ) (o : BerObject) (s : σ) :
    v.run o s = (preorder o 0).foldl (calls v) s :=
  visitObj_fold v o 0 s

/-- C52: the callback is the one of the type announced by the header; contents of other classes and
of unassigned universal numbers go to `visit_unknown`. -/
theorem C52_callback_of_type (h : Header) (c : Content) (ha : Agrees h c) :
    cbName c = if h.cls = .universal then (cbOfTag h.tag).getD .unknown else .unknown := by
  cases c with
  | str k s => cases k <;> · obtain ⟨h1, h2⟩ := ha; rw [h1, h2]; rfl
  | unknown a =>
    obtain ⟨-, h1⟩ := ha
    by_cases h0 : h.cls = .universal
    · rw [if_pos h0]
      rcases h1 with h1 | h1 | h1
      · exact absurd h0 h1
      · simp only [List.mem_cons, List.not_mem_nil, or_false] at h1
        rcases h1 with h1 | h1 | h1 | h1 | h1 | h1 <;> rw [h1] <;> rfl
      · generalize h.tag = t at h1
        unfold cbOfTag
        split <;> first | rfl | omega
    · rw [if_neg h0]; rfl
  | optionalNone | optionalSome _ | tagged _ _ _ => exact absurd ha (by simp [Agrees])
  | _ => obtain ⟨h1, h2⟩ := ha; rw [h1, h2]; rfl

/-- A private element whose number is that of INTEGER goes to `visit_unknown`. -/
example := C52_callback_of_type (Tests.h .priv false 2 1 [0xc2]) (.unknown ⟨Tests.h .priv false 2 1 [0xc2], [1]⟩)
  ⟨⟨rfl, rfl, rfl, rfl⟩, .inl (by decide)⟩

/-- C52: objects made by the combinators for optional and tagged types have callbacks of their own. -/
theorem C52_callback_made (c : Content) :
    (cbName c = .optional ↔ c = .optionalNone ∨ ∃ o, c = .optionalSome o) ∧
    (cbName c = .tagged ↔ ∃ k t o, c = .tagged k t o) := by
  cases c with
  | str k s => cases k <;> simp [cbName]
  | _ => simp [cbName]

mutual
theorem mem_preorder {o' : BerObject} (o : BerObject) (d : Nat) :
    (∃ d', (o', d') ∈ preorder o d) ↔ Node o' o := by
  match o with
  | .mk h c =>
    simp only [preorder, List.mem_cons, Prod.mk.injEq, exists_or]
    constructor
    · rintro (⟨_, rfl, -⟩ | hm)
      · exact .self
      · obtain ⟨l, rfl | rfl, x, hx, hn⟩ := (mem_preorderC c d).1 hm
        · exact .seq _ _ _ hx hn
        · exact .set _ _ _ hx hn
    · intro hn
      cases hn with
      | self => exact .inl ⟨d, rfl, rfl⟩
      | seq _ l x hx hn => exact .inr ((mem_preorderC _ d).2 ⟨l, .inl rfl, x, hx, hn⟩)
      | set _ l x hx hn => exact .inr ((mem_preorderC _ d).2 ⟨l, .inr rfl, x, hx, hn⟩)
theorem mem_preorderC {o' : BerObject} (c : Content) (d : Nat) :
    (∃ d', (o', d') ∈ preorderC c d) ↔
      ∃ l, (c = .sequence l ∨ c = .set l) ∧ ∃ x ∈ l, Node o' x := by
  match c with
  | .sequence l =>
    rw [preorderC, mem_preorderL l]
    exact ⟨fun h => ⟨l, .inl rfl, h⟩, by rintro ⟨l', h | h, hx⟩ <;> cases h; exact hx⟩
  | .set l =>
    rw [preorderC, mem_preorderL l]
    exact ⟨fun h => ⟨l, .inr rfl, h⟩, by rintro ⟨l', h | h, hx⟩ <;> cases h; exact hx⟩
  | .boolean _ | .integer _ | .bitString _ _ | .octetString _ | .null | .enum _ | .oid _
  | .relativeOid _ | .str _ _ | .utcTime _ | .generalizedTime _ | .bmpString _
  | .universalString _ | .optionalNone | .optionalSome _ | .tagged _ _ _ | .endOfContent
  | .unknown _ => simp [preorderC]
theorem mem_preorderL {o' : BerObject} (l : List BerObject) (d : Nat) :
    (∃ d', (o', d') ∈ preorderL l d) ↔ ∃ x ∈ l, Node o' x := by
  match l with
  | [] => simp [preorderL]
  | o :: os =>
    simp only [preorderL, List.mem_append, exists_or, mem_preorder o, mem_preorderL os,
      List.mem_cons, exists_eq_or_imp]
end

/-- C52: the listing contains exactly the objects reached through SEQUENCE and SET. -/
theorem C52_visits_nodes (o' o : BerObject) (d : Nat) :
    (∃ d', (o', d') ∈ preorder o d) ↔ Node o' o :=
  mem_preorder o d

mutual
theorem preorder_depth (o : BerObject) (d : Nat) :
    ∀ e ∈ preorder o d, d ≤ e.2 ∧ e.2 < d + depth o := by
  match o with
  | .mk h c =>
    intro e he
    simp only [preorder, List.mem_cons] at he
    simp only [depth]
    rcases he with rfl | he
    · refine ⟨Nat.le_refl _, ?_⟩
      have : 0 < contentDepth c := by cases c <;> simp [contentDepth]
      show d < _
      omega
    · have := preorderC_depth c d e he
      omega
theorem preorderC_depth (c : Content) (d : Nat) :
    ∀ e ∈ preorderC c d, d < e.2 ∧ e.2 < d + contentDepth c := by
  intro e he
  match c with
  | .sequence l =>
    have := preorderL_depth l (d + 1) e he
    simp only [contentDepth]; omega
  | .set l =>
    have := preorderL_depth l (d + 1) e he
    simp only [contentDepth]; omega
  | .boolean _ | .integer _ | .bitString _ _ | .octetString _ | .null | .enum _ | .oid _
  | .relativeOid _ | .str _ _ | .utcTime _ | .generalizedTime _ | .bmpString _
  | .universalString _ | .optionalNone | .optionalSome _ | .tagged _ _ _ | .endOfContent
  | .unknown _ => simp [preorderC] at he
theorem preorderL_depth (l : List BerObject) (d : Nat) :
    ∀ e ∈ preorderL l d, d ≤ e.2 ∧ e.2 < d + listDepth l := by
  intro e he
  match l with
  | [] => simp [preorderL] at he
  | o :: os =>
    simp only [preorderL, List.mem_append] at he
    simp only [listDepth]
    rcases he with he | he
    · have := preorder_depth o d e he; omega
    · have := preorderL_depth os d e he; omega
end

/-- C52: the depths passed to the callbacks lie between the starting depth and the starting depth
plus the nesting of the object; in particular the visit of a parsed object stays below 50. -/
theorem C52_depth_range (o : BerObject) (d : Nat) (e : BerObject × Nat) (he : e ∈ preorder o d) :
    d ≤ e.2 ∧ e.2 < d + depth o :=
  preorder_depth o d e he

example := C52_depth_range Tests.nested 3 (.mk (Tests.h .universal false 5 0 [0x05]) .null, 5) (by simp [Tests.nested, preorder, preorderC, preorderL])

namespace Tests
/-- A visitor that records the callbacks with their depths. -/
def recorder : Visitor (List (CbName × Nat)) where
  visitBer _ _ s := s
  callback n _ d s := s ++ [(n, d)]
end Tests

example : Tests.recorder.runAt Tests.nested 0 [] =
    [(.sequence, 0), (.integer, 1), (.set, 1), (.null, 2)] := by decide +kernel

/-! ## C53 -/

namespace Spec

/-- `Part o' o`: `o'` is `o` or is contained in `o` in any way: SEQUENCE, SET, Optional, Tagged. -/
inductive Part (o' : BerObject) : BerObject → Prop
  | self : Part o' o'
  | seq (h : Header) (l : List BerObject) (o : BerObject) :
      o ∈ l → Part o' o → Part o' (.mk h (.sequence l))
  | set (h : Header) (l : List BerObject) (o : BerObject) :
      o ∈ l → Part o' o → Part o' (.mk h (.set l))
  | opt (h : Header) (o : BerObject) : Part o' o → Part o' (.mk h (.optionalSome o))
  | tagged (h : Header) (k : Class) (t : Nat) (o : BerObject) :
      Part o' o → Part o' (.mk h (.tagged k t o))

/-- The visitor whose state is the list of the objects given to `visit_ber`. -/
def visitLog : Visitor (List BerObject) where
  visitBer o _ s := s ++ [o]
  callback _ _ _ s := s

end Spec

/-- C53 as claimed: `visit_ber` is called for every object, including those in Tagged and
Optional. -/
def C53Statement : Prop :=
  ∀ o o' : BerObject, Part o' o → o' ∈ visitLog.runAt o 0 []

theorem visitLog_eq (o : BerObject) (d : Nat) (s : List BerObject) :
    visitLog.runAt o d s = s ++ (preorder o d).map Prod.fst := by
  rw [C52_preorder]
  generalize preorder o d = l
  induction l generalizing s with
  | nil => simp
  | cons a l ih => rw [List.foldl_cons, ih]; simp [calls, visitLog]

/-- C53, what the code does: `visit_ber` is called exactly for the objects reached through SEQUENCE
and SET.  Missing: the objects wrapped in Tagged and Optional. -/
theorem C53_visits_partial (o o' : BerObject) : o' ∈ visitLog.runAt o 0 [] ↔ Node o' o := by
  rw [visitLog_eq, ← mem_preorder o 0]; simp

namespace Tests
/-- `[0] EXPLICIT NULL`, as built by `parse_ber_tagged_explicit`. -/
def explicitNull : BerObject :=
  .mk (h .contextSpecific true 0 2 [0xa0])
    (.tagged .contextSpecific 0 (.mk (h .universal false 5 0 [0x05]) .null))
end Tests

/-- C53 is false: the object inside `[0] EXPLICIT NULL` is not visited. -/
theorem C53_tagged_counterexample : ¬ C53Statement := by
  intro H
  have h := H Tests.explicitNull _ (.tagged _ _ _ _ .self)
  rw [C53_visits_partial] at h
  cases h

/-- C53 is false for Optional, too. -/
theorem C53_optional_counterexample (h : Header) (o : BerObject) (hne : o ≠ .mk h (.optionalSome o)) :
    Part o (.mk h (.optionalSome o)) ∧ o ∉ visitLog.runAt (.mk h (.optionalSome o)) 0 [] := by
  refine ⟨.opt _ _ .self, ?_⟩
  rw [C53_visits_partial]
  intro hn
  generalize hx : BerObject.mk h (.optionalSome o) = x at hn
  cases hn with
  | self => exact hne (hx.symm ▸ rfl)
  | seq => cases hx
  | set => cases hx

/-! ## C54 -/

/-- The visitor that does the same as `v` without the power to change objects. -/
def MutVisitor.toVisitor {σ : Type} (v : MutVisitor σ) : Visitor σ where
  visitBer o d s := (v.visitBer o d s).1
  callback n c d s := (v.callback n c d s).1

/-- The callbacks of `v` write nothing. -/
def MutVisitor.ReadOnly {σ : Type} (v : MutVisitor σ) : Prop :=
  (∀ o d s, (v.visitBer o d s).2 = o) ∧ (∀ n c d s, (v.callback n c d s).2 = c)

theorem writeBack_self (c : Content) : writeBack c c = c := by
  cases c <;> simp [writeBack]

theorem visitMutList_readOnly {σ : Type} (visit : BerObject → σ → Outcome Empty (σ × BerObject))
    (g : BerObject → σ → σ) (l : List BerObject)
    (h : ∀ o ∈ l, ∀ s, visit o s = .ok (g o s, o)) (s : σ) :
    visitMutList visit l s = .ok (l.foldl (fun s o => g o s) s, l) := by
  induction l generalizing s with
  | nil => rfl
  | cons o os ih =>
    rw [visitMutList, h o (by simp)]
    show visitMutList visit os (g o s) >>? _ = _
    rw [ih fun x hx => h x (by simp [hx])]
    rfl

theorem visitList_foldl {σ : Type} (v : Visitor σ) (l : List BerObject) (d : Nat) (s : σ) :
    visitList v l d s = l.foldl (fun s o => visitObj v o d s) s := by
  induction l generalizing s with
  | nil => rfl
  | cons o os ih => rw [visitList, ih]; rfl

theorem depth_le_listDepth {o : BerObject} {l : List BerObject} (h : o ∈ l) :
    depth o ≤ listDepth l := by
  induction l with
  | nil => cases h
  | cons a l ih =>
    simp only [listDepth]
    rcases List.mem_cons.1 h with rfl | h
    · omega
    · have := ih h; omega

/-- C54: a mutable visitor whose callbacks write nothing leaves the object unchanged and makes the
calls of the immutable visitor, in the same order. -/
theorem C54_read_only {σ : Type} (v : MutVisitor σ) (hv : v.ReadOnly) (o : BerObject) (d : Nat)
    (s : σ) (fuel : Nat) (hf : depth o ≤ fuel) :
    visitMutObj v fuel o d s = .ok (v.toVisitor.runAt o d s, o) := by
  induction fuel generalizing o d s with
  | zero =>
    obtain ⟨h, c⟩ := o
    cases c <;> simp [depth, contentDepth] at hf
  | succ fuel ih =>
    obtain ⟨h, c⟩ := o
    have key : ∀ l : List BerObject, listDepth l ≤ fuel → ∀ s,
        visitMutList (fun o s => visitMutObj v fuel o (d + 1) s) l s =
          .ok (visitList v.toVisitor l (d + 1) s, l) := by
      intro l hl s
      rw [visitList_foldl]
      exact visitMutList_readOnly _ (fun o s => visitObj v.toVisitor o (d + 1) s) l
        (fun o ho s => ih o (d + 1) s (Nat.le_trans (depth_le_listDepth ho) hl)) s
    rw [visitMutObj]
    simp only [hv.1, hv.2, writeBack_self]
    show (match c with | .sequence l => _ | .set l => _ | c => _) = _
    simp only [depth] at hf
    cases c with
    | sequence l =>
      simp only [contentDepth] at hf
      simp only [key l (by omega)]
      rfl
    | set l =>
      simp only [contentDepth] at hf
      simp only [key l (by omega)]
      rfl
    | _ => rfl

/-- A visitor that counts the objects and the callbacks. -/
example := C54_read_only (σ := Nat × Nat) ⟨fun o _ s => ((s.1 + 1, s.2), o), fun _ c _ s => ((s.1, s.2 + 1), c)⟩
  ⟨fun _ _ _ => rfl, fun _ _ _ _ => rfl⟩ Tests.nested 0 (0, 0) 3 (by decide)

/-- C54: the entry points `run_at` and `run` of the mutable visitor. -/
theorem C54_run {σ : Type} (v : MutVisitor σ) (hv : v.ReadOnly) (o : BerObject) (d : Nat)
    (s : σ) (fuel : Nat) (hf : depth o ≤ fuel) :
    v.runAt fuel o d s = .ok (v.toVisitor.runAt o d s, o) ∧
    v.run fuel o s = .ok (v.toVisitor.run o s, o) :=
  ⟨C54_read_only v hv o d s fuel hf, C54_read_only v hv o 0 s fuel hf⟩

example := C54_run (σ := Nat × Nat) ⟨fun o _ s => ((s.1 + 1, s.2), o), fun _ c _ s => ((s.1, s.2 + 1), c)⟩
  ⟨fun _ _ _ => rfl, fun _ _ _ _ => rfl⟩ Tests.nested 7 (0, 0) 3 (by decide)

/-- The callbacks of `v` may change anything but the shape: `visit_ber_mut` keeps the children (and
whether the content is a SEQUENCE or SET), and the SEQUENCE and SET callbacks keep the list. -/
def MutVisitor.KeepsShape {σ : Type} (v : MutVisitor σ) : Prop :=
  (∀ o d s l, (v.visitBer o d s).2.content = .sequence l ∨ (v.visitBer o d s).2.content = .set l →
    children o = l) ∧
  (∀ o d s, (∀ l, (v.visitBer o d s).2.content ≠ .sequence l ∧
    (v.visitBer o d s).2.content ≠ .set l) → children o = []) ∧
  (∀ n l d s, (v.callback n (.sequence l) d s).2 = .sequence l) ∧
  (∀ n l d s, (v.callback n (.set l) d s).2 = .set l)

/-- `v` with a log of the objects given to `visit_ber_mut`, as received, with depths. -/
def MutVisitor.logged {σ : Type} (v : MutVisitor σ) : MutVisitor (σ × List (BerObject × Nat)) where
  visitBer o d s := (((v.visitBer o d s.1).1, s.2 ++ [(o, d)]), (v.visitBer o d s.1).2)
  callback n c d s := (((v.callback n c d s.1).1, s.2), (v.callback n c d s.1).2)

/-- Logging changes nothing else. -/
theorem C54_logged {σ : Type} (v : MutVisitor σ) (fuel : Nat) (o : BerObject) (d : Nat) (s : σ)
    (t : List (BerObject × Nat)) :
    (visitMutObj v.logged fuel o d (s, t)).map (fun r => (r.1.1, r.2)) = visitMutObj v fuel o d s := by
  induction fuel generalizing o d s t with
  | zero => rfl
  | succ fuel ih =>
    have key : ∀ (l : List BerObject) (s : σ) (t : List (BerObject × Nat)),
        (visitMutList (fun o s => visitMutObj v.logged fuel o (d + 1) s) l (s, t)).map
          (fun r => (r.1.1, r.2)) =
        visitMutList (fun o s => visitMutObj v fuel o (d + 1) s) l s := by
      intro l
      induction l with
      | nil => intros; rfl
      | cons a l ihl =>
        intro s t
        rw [visitMutList, visitMutList, ← ih a (d + 1) s t]
        cases visitMutObj v.logged fuel a (d + 1) (s, t) with
        | ok r =>
          obtain ⟨⟨s1, t1⟩, o1⟩ := r
          show Outcome.map _ (visitMutList _ l (s1, t1) >>? _) = visitMutList _ l s1 >>? _
          rw [← ihl s1 t1]
          cases visitMutList (fun o s => visitMutObj v.logged fuel o (d + 1) s) l (s1, t1) <;> rfl
        | err e => exact e.elim
        | panic => rfl
        | diverge => rfl
    rw [visitMutObj, visitMutObj]
    have hw : ∀ s : σ × List (BerObject × Nat),
        v.logged.visitBer o d s = (((v.visitBer o d s.1).1, s.2 ++ [(o, d)]), (v.visitBer o d s.1).2) :=
      fun _ => rfl
    have hc : ∀ n c (s : σ × List (BerObject × Nat)),
        v.logged.callback n c d s = (((v.callback n c d s.1).1, s.2), (v.callback n c d s.1).2) :=
      fun _ _ _ => rfl
    simp only [hw, hc]
    generalize v.visitBer o d s = r
    generalize v.callback (cbName r.2.content) r.2.content d r.1 = q
    generalize writeBack r.2.content q.2 = c
    cases c with
    | sequence l =>
      simp only
      rw [← key l q.1 (t ++ [(o, d)])]
      generalize visitMutList _ l _ = x
      cases x with
      | ok r => rfl
      | err e => exact e.elim
      | panic => rfl
      | diverge => rfl
    | set l =>
      simp only
      rw [← key l q.1 (t ++ [(o, d)])]
      generalize visitMutList _ l _ = x
      cases x with
      | ok r => rfl
      | err e => exact e.elim
      | panic => rfl
      | diverge => rfl
    | _ => rfl

theorem writeBack_leaf (c1 c2 : Content) (h : ∀ l, c1 ≠ .sequence l ∧ c1 ≠ .set l) :
    ∀ l, writeBack c1 c2 ≠ .sequence l ∧ writeBack c1 c2 ≠ .set l := by
  intro l
  cases c1 with
  | sequence l => exact absurd rfl (h l).1
  | set l => exact absurd rfl (h l).2
  | str k x =>
    cases c2 with
    | str k' x' => simp only [writeBack]; split <;> simp
    | _ => simp [writeBack]
  | _ => cases c2 <;> simp [writeBack]

theorem preorder_children (o : BerObject) (d : Nat) :
    preorder o d = (o, d) :: preorderL (children o) (d + 1) := by
  obtain ⟨h, c⟩ := o
  cases c <;> rfl

theorem depth_children (o : BerObject) : depth o = listDepth (children o) + 1 := by
  obtain ⟨h, c⟩ := o
  cases c <;> rfl

/-- C54: as long as the callbacks keep the shape, the traversal terminates and `visit_ber_mut` is
called on the objects on which `visit_ber` would be called, in the same order and with the same
depths. -/
theorem C54_same_order {σ : Type} (v : MutVisitor σ) (hv : v.KeepsShape) (o : BerObject) (d : Nat)
    (s : σ) (t : List (BerObject × Nat)) (fuel : Nat) (hf : depth o ≤ fuel) :
    ∃ s' o', visitMutObj v.logged fuel o d (s, t) = .ok ((s', t ++ preorder o d), o') := by
  induction fuel generalizing o d s t with
  | zero => rw [depth_children] at hf; omega
  | succ fuel ih =>
    have key : ∀ (l : List BerObject), listDepth l ≤ fuel → ∀ (s : σ) (t : List (BerObject × Nat)),
        ∃ s' l', visitMutList (fun o s => visitMutObj v.logged fuel o (d + 1) s) l (s, t) =
          .ok ((s', t ++ preorderL l (d + 1)), l') := by
      intro l
      induction l with
      | nil => intro _ s t; exact ⟨s, [], by simp [visitMutList, preorderL]⟩
      | cons a l ihl =>
        intro hl s t
        simp only [listDepth] at hl
        obtain ⟨s1, o1, h1⟩ := ih a (d + 1) s t (by omega)
        obtain ⟨s2, l2, h2⟩ := ihl (by omega) s1 (t ++ preorder a (d + 1))
        refine ⟨s2, o1 :: l2, ?_⟩
        rw [visitMutList, h1]
        show visitMutList _ l (s1, t ++ preorder a (d + 1)) >>? _ = _
        rw [h2, preorderL, ← List.append_assoc]; rfl
    rw [depth_children] at hf
    rw [preorder_children, visitMutObj]
    obtain ⟨hk1, hk2, hk3, hk4⟩ := hv
    have hk1 := hk1 o d s
    have hk2 := hk2 o d s
    simp only [MutVisitor.logged]
    generalize v.visitBer o d s = r at hk1 hk2
    obtain ⟨s1, o1⟩ := r
    obtain ⟨h1, c1⟩ := o1
    simp only [BerObject.content, BerObject.header] at hk1 hk2 ⊢
    by_cases hc : ∀ l, c1 ≠ .sequence l ∧ c1 ≠ .set l
    · have hl := writeBack_leaf c1 (v.callback (cbName c1) c1 d s1).2 hc
      rw [hk2 hc]
      split
      · rename_i l he; exact absurd he (hl l).1
      · rename_i l he; exact absurd he (hl l).2
      · exact ⟨_, _, rfl⟩
    cases c1 with
    | sequence l =>
      rw [hk1 l (.inl rfl)] at hf ⊢
      simp only [hk3, writeBack]
      obtain ⟨s', l', h⟩ := key l (by omega) (v.callback (cbName (.sequence l)) (.sequence l) d s1).1
        (t ++ [(o, d)])
      refine ⟨s', .mk h1 (.sequence l'), ?_⟩
      simp only [MutVisitor.logged] at h
      simp only [h]
      simp [Outcome.bind]
    | set l =>
      rw [hk1 l (.inr rfl)] at hf ⊢
      simp only [hk4, writeBack]
      obtain ⟨s', l', h⟩ := key l (by omega) (v.callback (cbName (.set l)) (.set l) d s1).1
        (t ++ [(o, d)])
      refine ⟨s', .mk h1 (.set l'), ?_⟩
      simp only [MutVisitor.logged] at h
      simp only [h]
      simp [Outcome.bind]
    | _ => exact absurd (by simp) hc

/-- A visitor that makes every BOOLEAN true. -/
example := C54_same_order (σ := Unit) ⟨fun o _ s => (s, o), fun _ c _ s => (s, match c with | .boolean _ => .boolean true | c => c)⟩
  (by
    refine ⟨?_, ?_, fun _ _ _ _ => rfl, fun _ _ _ _ => rfl⟩
    · rintro ⟨h, c⟩ d s l (hl | hl) <;> · cases hl; rfl
    · rintro ⟨h, c⟩ d s hl
      cases c with
      | sequence l => exact absurd rfl (hl l).1
      | set l => exact absurd rfl (hl l).2
      | _ => rfl) Tests.nested 0 () [] 3 (by decide)

/-- C54: what `visit_ber_mut` wrote is what the rest of the traversal of that object sees: replacing
an object by what `visit_ber_mut` makes of it, and `visit_ber_mut` by a callback that writes nothing
to that replacement and leaves the same state, changes nothing. -/
theorem C54_change_seen {σ : Type} (v w : MutVisitor σ) (o : BerObject) (d : Nat) (s s' : σ)
    (hw : w.visitBer (v.visitBer o d s).2 d s' = v.visitBer o d s) (hc : w.callback = v.callback)
    (hd : ∀ x k s, d < k → w.visitBer x k s = v.visitBer x k s) (fuel : Nat) :
    visitMutObj v fuel o d s = visitMutObj w fuel (v.visitBer o d s).2 d s' := by
  have key : ∀ (fuel : Nat) (o : BerObject) (k : Nat) (s : σ), d < k →
      visitMutObj w fuel o k s = visitMutObj v fuel o k s := by
    intro fuel
    induction fuel with
    | zero => intros; rfl
    | succ fuel ih =>
      intro o k s hk
      rw [visitMutObj, visitMutObj]
      have hf : (fun o s => visitMutObj w fuel o (k + 1) s) =
          fun o s => visitMutObj v fuel o (k + 1) s := by
        funext o s; exact ih o (k + 1) s (by omega)
      simp only [hd o k s hk, hc, hf]
  cases fuel with
  | zero => rfl
  | succ fuel =>
    have hf : (fun o s => visitMutObj w fuel o (d + 1) s) =
        fun o s => visitMutObj v fuel o (d + 1) s := by
      funext o s; exact key fuel o (d + 1) s (by omega)
    rw [visitMutObj, visitMutObj]
    simp only [hw, hc, hf]

/-- `v` empties the outermost object; `w` finds it emptied and touches nothing. -/
example := C54_change_seen (σ := Unit) ⟨fun o d s => (s, if d = 0 then .mk o.header (.sequence []) else o), fun _ c _ s => (s, c)⟩
  ⟨fun o _ s => (s, o), fun _ c _ s => (s, c)⟩ Tests.nested 0 () () rfl rfl
  (fun x k _ hk => by simp [Nat.ne_of_gt hk]) 3

/-- C54: in particular the type-specific callback is the one of the new content, and the children
visited are those of the new list. -/
theorem C54_new_children {σ : Type} (v : MutVisitor σ) (o : BerObject) (d : Nat) (s s1 s2 : σ)
    (h1 : Header) (l l1 : List BerObject) (fuel : Nat)
    (hb : v.visitBer o d s = (s1, .mk h1 (.sequence l1)))
    (hc : v.callback .sequence (.sequence l1) d s1 = (s2, .sequence l)) :
    visitMutObj v (fuel + 1) o d s =
      (visitMutList (fun o s => visitMutObj v fuel o (d + 1) s) l s2).map
        fun t => (t.1, .mk h1 (.sequence t.2)) := by
  rw [visitMutObj]
  simp only [hb, BerObject.content, BerObject.header, cbName, hc, writeBack]
  generalize visitMutList _ l s2 = x
  cases x with
  | ok r => rfl
  | err e => exact e.elim
  | panic => rfl
  | diverge => rfl

/-- `visit_ber_mut` turns the object into an empty SEQUENCE and the callback for SEQUENCE puts a child into it. -/
example := C54_new_children (σ := Unit) ⟨fun o _ s => (s, .mk o.header (.sequence [])), fun n c _ s =>
    (s, if n = .sequence then .sequence [.mk (Tests.h .universal false 5 0 [0x05]) .null] else c)⟩
  Tests.nested 0 () () () _ _ [] 3 rfl rfl

/-- C54: without the condition the traversal need not terminate: a visitor that puts a SEQUENCE into
each object it meets runs for ever. -/
theorem C54_growing_diverges (h : Header) (o : BerObject) (d fuel : Nat) :
    visitMutObj (σ := Unit)
      ⟨fun _ _ s => (s, .mk h (.sequence [.mk h .null])), fun _ c _ s => (s, c)⟩ fuel o d () =
      .diverge := by
  induction fuel generalizing o d with
  | zero => rfl
  | succ fuel ih =>
    rw [visitMutObj]
    simp only [BerObject.content, writeBack, visitMutList, ih]
    rfl

namespace Tests
/-- A visitor that replaces every INTEGER by 7 and counts. -/
def setter : MutVisitor Nat where
  visitBer o _ s := (s + 1, o)
  callback _ c _ s := (s, match c with | .integer _ => .integer [7] | c => c)
end Tests

example : Tests.setter.KeepsShape := by
  refine ⟨?_, ?_, fun _ _ _ _ => rfl, fun _ _ _ _ => rfl⟩
  · rintro ⟨h, c⟩ d s l (hl | hl) <;> · cases hl; rfl
  · rintro ⟨h, c⟩ d s hl
    cases c with
    | sequence l => exact absurd rfl (hl l).1
    | set l => exact absurd rfl (hl l).2
    | _ => rfl

example : ∃ o, visitMutObj Tests.setter 3 Tests.nested 0 0 = .ok (4, o) ∧
    (children o)[0]?.map BerObject.content = some (.integer [7]) := ⟨_, rfl, rfl⟩

/-! ## C55 -/

namespace Spec

/-- A call of `set_flag` or `unset_flag`. -/
inductive FlagOp where
  | set (f : PrettyPrinterFlag)
  | unset (f : PrettyPrinterFlag)

/-- The flag the call is about. -/
def FlagOp.flag : FlagOp → PrettyPrinterFlag
  | .set f => f
  | .unset f => f

/-- Whether the call sets its flag. -/
def FlagOp.sets : FlagOp → Bool
  | .set _ => true
  | .unset _ => false

end Spec

/-- Effect of a call. -/
def PrettyBer.apply (p : PrettyBer) : FlagOp → PrettyBer
  | .set f => p.setFlag f
  | .unset f => p.unsetFlag f

theorem isFlagSet_apply (p : PrettyBer) (op : FlagOp) (f : PrettyPrinterFlag) :
    (p.apply op).isFlagSet f = if op.flag = f then op.sets else p.isFlagSet f := by
  cases op with
  | set g =>
    show (p.setFlag g).isFlagSet f = if g = f then true else p.isFlagSet f
    simp only [PrettyBer.setFlag, PrettyBer.isFlagSet]
    by_cases h : p.flags.contains g
    · rw [if_pos h]
      by_cases hf : g = f
      · rw [if_pos hf, ← hf, h]
      · rw [if_neg hf]
    · rw [if_neg h]
      by_cases hf : g = f
      · simp [hf]
      · have : ¬ f = g := fun h => hf h.symm
        simp [hf, this]
  | unset g =>
    show (p.unsetFlag g).isFlagSet f = if g = f then false else p.isFlagSet f
    simp only [PrettyBer.unsetFlag, PrettyBer.isFlagSet]
    by_cases hf : g = f
    · simp [hf]
    · have : ¬ f = g := fun h => hf h.symm
      rw [if_neg hf, Bool.eq_iff_iff]
      simp [this]

/-- C55: after any history of `set_flag` and `unset_flag`, a flag is set iff the last call about it
set it, or no call was about it and it was set before. -/
theorem C55_flags (p : PrettyBer) (ops : List FlagOp) (f : PrettyPrinterFlag) :
    (ops.foldl PrettyBer.apply p).isFlagSet f =
      match (ops.filter (fun op => op.flag = f)).getLast? with
      | some op => op.sets
      | none => p.isFlagSet f := by
  induction ops generalizing p with
  | nil => rfl
  | cons op ops ih =>
    rw [List.foldl_cons, ih, List.filter_cons]
    by_cases h : op.flag = f
    · rw [if_pos (by simpa using h), List.getLast?_cons]
      cases (ops.filter (fun op => op.flag = f)).getLast? <;> simp [isFlagSet_apply, h]
    · rw [if_neg (by simpa using h)]
      cases (ops.filter (fun op => op.flag = f)).getLast? <;> simp [isFlagSet_apply, h]

/-- C55: initially `Recursive` is set and `ShowHeader` is not. -/
theorem C55_initial (o : BerObject) (indent inc : Nat) (f : PrettyPrinterFlag) :
    (o.asPretty indent inc).isFlagSet f = true ↔ f = .recursive := by
  cases f <;> simp [BerObject.asPretty, PrettyBer.new, PrettyBer.isFlagSet]

/-- C55: the calls change nothing but the flags, and no flag is stored twice. -/
theorem C55_rest_unchanged (p : PrettyBer) (ops : List FlagOp) :
    (ops.foldl PrettyBer.apply p).obj = p.obj ∧
    (ops.foldl PrettyBer.apply p).indent = p.indent ∧
    (ops.foldl PrettyBer.apply p).inc = p.inc ∧
    (p.flags.Nodup → (ops.foldl PrettyBer.apply p).flags.Nodup) := by
  induction ops generalizing p with
  | nil => exact ⟨rfl, rfl, rfl, id⟩
  | cons op ops ih =>
    obtain ⟨h1, h2, h3, h4⟩ := ih (p.apply op)
    rw [List.foldl_cons, h1, h2, h3]
    cases op with
    | set f =>
      simp only [PrettyBer.apply, PrettyBer.setFlag] at h4 ⊢
      by_cases h : p.flags.contains f
      · rw [if_pos h] at h4 ⊢; exact ⟨rfl, rfl, rfl, h4⟩
      · rw [if_neg h] at h4 ⊢
        refine ⟨rfl, rfl, rfl, fun hn => h4 ?_⟩
        rw [List.nodup_append]
        refine ⟨hn, by simp, ?_⟩
        intro a ha b hb hab
        simp only [List.mem_singleton] at hb
        subst hb; subst hab
        exact h (by simpa using ha)
    | unset f => exact ⟨rfl, rfl, rfl, fun hn => h4 (hn.filter _)⟩

example : (Tests.nested.asPretty 0 2).flags.Nodup := by decide

/-- C55: the printers of nested objects have the same flags. -/
theorem C55_nested (p : PrettyBer) (o : BerObject) (f : PrettyPrinterFlag) :
    (p.nextIndent o).isFlagSet f = p.isFlagSet f := rfl

example : ([FlagOp.set .showHeader, .unset .recursive, .set .showHeader].foldl PrettyBer.apply
    (Tests.nested.asPretty 0 2)).flags = [.showHeader] := by decide +kernel

end Verif
