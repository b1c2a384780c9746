import Verif.Props.Linear
import Verif.Props.CostWrite
import Verif.Props.Print
import Verif.Props.Text
/-!
# Property C137: size of the printed text
-/
namespace Verif
open Outcome Spec

namespace Spec

/-- An object without its members. -/
def bare : BerObject → BerObject
  | .mk h (.sequence _) => .mk h (.sequence [])
  | .mk h (.set _) => .mk h (.set [])
  | o => o

/-- Bounds for the texts of other crates: `A` octets for each octet of contents and `B` octets besides. -/
structure TextBound (D : Deps) (P : PrintDeps) (A B : Nat) : Prop where
  hex : ∀ s, (P.hexSlice s).length ≤ A * s.length + B
  oid : ∀ r s, (P.oid r s).length ≤ A * s.length + B
  tag : ∀ n, n < 2 ^ 32 → (P.tag n).length ≤ B
  cls : ∀ c, (P.cls c).length ≤ B
  time : ∀ k c t, D.utcTime k c = .ok t ∨ D.generalizedTime k c = .ok t → (P.dateTime t).length ≤ B

end Spec

/-- The printer `p` for another object, `d` levels further inside. -/
def PrettyBer.inside (p : PrettyBer) (d : Nat) (o : BerObject) : PrettyBer :=
  { obj := o, indent := p.indent + d * p.inc, inc := p.inc, flags := p.flags }

theorem fmtList_obj (P : PrintDeps) (p : PrettyBer) (x : BerObject) : ∀ l : List BerObject,
    fmtList P { p with obj := x } l = fmtList P p l
  | [] => rfl
  | o :: os => by rw [fmtList, fmtList, fmtList_obj P p x os]; rfl

theorem fmtObj_obj (P : PrintDeps) (p : PrettyBer) (x : BerObject) (o : BerObject) :
    fmtObj P { p with obj := x } o = fmtObj P p o := by
  cases o with
  | mk h c =>
    cases c
    case sequence l => simp only [fmtObj, fmtContent, fmtList_obj]; rfl
    case set l => simp only [fmtObj, fmtContent, fmtList_obj]; rfl
    all_goals rfl

/-- Octets of the text of one object of the tree, without its members. -/
def ownSize (P : PrintDeps) (p : PrettyBer) (e : BerObject × Nat) : Nat :=
  (fmtObj P (p.inside e.2 e.1) (bare e.1)).length

mutual
theorem text_sum (P : PrintDeps) (p : PrettyBer) (hr : p.isRecursive = true) (x : BerObject) (d : Nat) :
    ∀ o : BerObject, (fmtObj P (p.inside d x) o).length = ((preorder o d).map (ownSize P p)).sum
  | .mk h c => by
    rw [preorder, List.map_cons, List.sum_cons, fmtObj, List.length_append, text_sumC P p hr x d h c, ownSize]
    rw [show p.inside d (.mk h c) = { p.inside d x with obj := .mk h c } from rfl, fmtObj_obj]
    have hb : ∃ c', bare (.mk h c) = .mk h c' := by cases c <;> exact ⟨_, rfl⟩
    obtain ⟨c', hb⟩ := hb
    simp only [hb, fmtObj, List.length_append, BerObject.content]
    omega
theorem text_sumC (P : PrintDeps) (p : PrettyBer) (hr : p.isRecursive = true) (x : BerObject) (d : Nat) (h : Header) :
    ∀ c : Content, (fmtContent P (p.inside d x) h c).length =
      (fmtContent P (p.inside d x) h (bare (.mk h c)).content).length + ((preorderC c d).map (ownSize P p)).sum
  | .sequence l => by
    have hr' : (p.inside d x).isRecursive = true := hr
    have := text_sumL P p hr x d l
    simp only [bare, BerObject.content, fmtContent, hr', if_true, fmtList, preorderC, List.length_append, this, List.length_nil]
    omega
  | .set l => by
    have hr' : (p.inside d x).isRecursive = true := hr
    have := text_sumL P p hr x d l
    simp only [bare, BerObject.content, fmtContent, hr', if_true, fmtList, preorderC, List.length_append, this, List.length_nil]
    omega
  | .endOfContent | .boolean _ | .integer _ | .bitString _ _ | .octetString _ | .null | .enum _ | .oid _
  | .relativeOid _ | .str _ _ | .bmpString _ | .universalString _ | .utcTime _ | .generalizedTime _
  | .optionalSome _ | .optionalNone | .tagged _ _ _ | .unknown _ => rfl
theorem text_sumL (P : PrintDeps) (p : PrettyBer) (hr : p.isRecursive = true) (x : BerObject) (d : Nat) :
    ∀ l : List BerObject, (fmtList P (p.inside d x) l).length = ((preorderL l (d + 1)).map (ownSize P p)).sum
  | [] => rfl
  | o :: os => by
    have h1 := text_sum P p hr o (d + 1) o
    have h2 := text_sumL P p hr x d os
    rw [fmtList, List.length_append, h2, preorderL, List.map_append, List.sum_append, ← h1]
    congr 3
    simp only [PrettyBer.nextIndent, PrettyBer.inside, Nat.add_mul, Nat.one_mul, Nat.add_assoc]
end

/-- C137: the recursive printer writes the text of each object of the tree without its members, indented by the increment
for each level, and nothing else. -/
theorem C137_sum (P : PrintDeps) (p : PrettyBer) (hr : p.isFlagSet .recursive = true) :
    (p.fmt P).length = ((preorder p.obj 0).map fun e =>
      ({ obj := bare e.1, indent := p.indent + e.2 * p.inc, inc := p.inc, flags := p.flags : PrettyBer }.fmt P).length).sum := by
  have h1 := text_sum P p hr p.obj 0 p.obj
  have h2 : p.inside 0 p.obj = p := by simp [PrettyBer.inside]
  rw [h2] at h1
  rw [PrettyBer.fmt, h1]
  congr 1
  refine List.map_congr_left fun e _ => ?_
  rw [ownSize, PrettyBer.fmt]
  exact congrArg List.length (fmtObj_obj P _ (bare e.1) _).symm

/-- The members of a SEQUENCE in a SET, printed with an increment of 2. -/
example := C137_sum Tests.P0 (Tests.nested.asPretty 1 2) rfl

/-! ## Bounds -/

theorem decimal_le : ∀ (k n : Nat), n < 10 ^ (k + 1) → (decimal n).length ≤ k + 1
  | 0, n, h => by
    rw [decimal_small (by omega)]
    simp
  | k + 1, n, h => by
    by_cases h1 : n < 10
    · rw [decimal_small h1]
      simp
    · rw [decimal_step (by omega), List.length_append]
      have := decimal_le k (n / 10) (by rw [Nat.pow_succ] at h; omega)
      simp only [List.length_cons, List.length_nil]
      omega

theorem sepBy_le (sep : Bytes) (m : Nat) : ∀ l : List Bytes, (∀ x ∈ l, x.length ≤ m) →
    (sepBy sep l).length ≤ (m + sep.length) * l.length
  | [], _ => by simp [sepBy]
  | [x], h => by
    have := h x (by simp)
    simp only [sepBy, List.length_cons, List.length_nil]
    omega
  | x :: y :: r, h => by
    have h1 := h x (by simp)
    have h2 := sepBy_le sep m (y :: r) fun z hz => h z (List.mem_cons_of_mem _ hz)
    rw [sepBy]
    · simp only [List.length_append, List.length_cons, Nat.mul_add, Nat.mul_one] at h2 ⊢
      omega
    · simp

theorem debugBytes_le (s : Bytes) : (debugBytes s).length ≤ 5 * s.length + 2 := by
  have h1 := sepBy_le (lit ", ") 3 (s.map fun b => decimal b.toNat) (by
    intro x hx
    obtain ⟨b, -, rfl⟩ := List.mem_map.1 hx
    exact decimal_le 2 _ (Nat.lt_of_lt_of_le b.toNat_lt (by decide)))
  have h2 : (lit ", ").length = 2 := by decide
  have h3 : (lit "[").length = 1 := by decide
  have h4 : (lit "]").length = 1 := by decide
  rw [h2, List.length_map] at h1
  simp only [debugBytes, List.length_append, h3, h4]
  omega

theorem encodeUtf8_le (c : Nat) : (encodeUtf8 c).length ≤ 4 ∧ (c < 0x10000 → (encodeUtf8 c).length ≤ 3) := by
  unfold encodeUtf8
  split
  · simp
  · split
    · simp
    · split
      · simp
      · simp only [List.length_cons, List.length_nil]
        omega

theorem utf16_le : ∀ (n : Nat) (l cs : List Nat), l.length ≤ n → (∀ u ∈ l, u < 0x10000) → decodeUtf16 l = some cs →
    (cs.flatMap encodeUtf8).length ≤ 3 * l.length := by
  intro n
  induction n with
  | zero =>
    intro l cs hl _ h
    obtain rfl := List.length_eq_zero_iff.1 (Nat.le_zero.1 hl)
    rw [decodeUtf16] at h
    cases h
    simp
  | succ n ih =>
    intro l cs hl hu h
    cases l with
    | nil => rw [decodeUtf16] at h; cases h; simp
    | cons u rest =>
      rw [List.length_cons] at hl
      unfold decodeUtf16 at h
      split at h
      · obtain ⟨cs', h1, rfl⟩ := Option.map_eq_some_iff.1 h
        have h2 := ih rest cs' (by omega) (fun v hv => hu v (List.mem_cons_of_mem _ hv)) h1
        have h3 := (encodeUtf8_le u).2 (hu u List.mem_cons_self)
        simp only [List.flatMap_cons, List.length_append, List.length_cons]
        omega
      · split at h
        · cases h
        · split at h
          · rename_i v rest'
            rw [List.length_cons] at hl
            split at h
            · obtain ⟨cs', h1, rfl⟩ := Option.map_eq_some_iff.1 h
              have h2 := ih rest' cs' (by omega)
                (fun w hw => hu w (List.mem_cons_of_mem _ (List.mem_cons_of_mem _ hw))) h1
              have h3 := (encodeUtf8_le (0x10000 + (u - 0xD800) * 1024 + (v - 0xDC00))).1
              simp only [List.flatMap_cons, List.length_append, List.length_cons]
              omega
            · cases h
          · cases h

theorem utf16Units_le : ∀ (n : Nat) (s : Bytes), s.length ≤ n → 2 * (utf16Units s).length ≤ s.length ∧
    ∀ u ∈ utf16Units s, u < 0x10000 := by
  intro n
  induction n with
  | zero =>
    intro s hs
    obtain rfl := List.length_eq_zero_iff.1 (Nat.le_zero.1 hs)
    simp [utf16Units]
  | succ n ih =>
    intro s hs
    match s with
    | [] => simp [utf16Units]
    | [_] => simp [utf16Units]
    | a :: b :: rest =>
      simp only [List.length_cons] at hs
      have h1 := ih rest (by omega)
      rw [utf16Units]
      simp only [List.length_cons]
      refine ⟨by omega, ?_⟩
      intro u hu
      rcases List.mem_cons.1 hu with rfl | hu
      · have := a.toNat_lt; have := b.toNat_lt; omega
      · exact h1.2 u hu

theorem utf32Units_le : ∀ (n : Nat) (s : Bytes), s.length ≤ n → 4 * (utf32Units s).length ≤ s.length := by
  intro n
  induction n with
  | zero =>
    intro s hs
    obtain rfl := List.length_eq_zero_iff.1 (Nat.le_zero.1 hs)
    simp [utf32Units]
  | succ n ih =>
    intro s hs
    match s with
    | [] => simp [utf32Units]
    | [_] => simp [utf32Units]
    | [_, _] => simp [utf32Units]
    | [_, _, _] => simp [utf32Units]
    | a :: b :: c :: d :: rest =>
      simp only [List.length_cons] at hs
      have h1 := ih rest (by omega)
      rw [utf32Units]
      simp only [List.length_cons]
      omega

theorem flatMap_utf8_le : ∀ cs : List Nat, (cs.flatMap encodeUtf8).length ≤ 4 * cs.length
  | [] => by simp
  | c :: cs => by
    have h1 := flatMap_utf8_le cs
    have h2 := (encodeUtf8_le c).1
    simp only [List.flatMap_cons, List.length_append, List.length_cons]
    omega

theorem lit_len (s : String) : (lit s).length = s.toList.length := by
  rw [lit, List.length_map]

theorem bmp_le (s : Bytes) : (printUtf16 s "BmpString").length ≤ 5 * s.length + 70 := by
  have h1 := utf16Units_le s.length s (Nat.le_refl _)
  unfold printUtf16
  split
  · rename_i cs hcs
    have h2 := utf16_le _ _ cs (Nat.le_refl _) h1.2 hcs
    simp only [List.length_append]
    have e1 : (lit "BmpString").length = 9 := by decide
    have e2 : (lit "(\"").length = 2 := by decide
    have e3 : (lit "\")\n").length = 3 := by decide
    omega
  · have : (lit "BmpString" ++ lit "(Err(FromUtf16Error(()))) <error decoding utf32 string>\n").length ≤ 70 := by decide
    omega

theorem universal_le (s : Bytes) : (printUtf32 s "UniversalString").length ≤ 5 * s.length + 70 := by
  have h1 := utf32Units_le s.length s (Nat.le_refl _)
  have h2 := debugBytes_le s
  have h3 := flatMap_utf8_le (utf32Units s)
  have e1 : (lit "UniversalString").length = 15 := by decide
  have e2 : (lit "(\"").length = 2 := by decide
  have e3 : (lit "\")\n").length = 3 := by decide
  have e4 : (lit "(").length = 1 := by decide
  have e5 : (lit ") <error decoding utf32 string>\n").length = 32 := by decide
  unfold printUtf32
  split <;> simp only [List.length_append] <;> omega

theorem str_le (k : StrKind) (s : Bytes) : (printStr k s).length ≤ s.length + 30 := by
  cases k <;> simp only [printStr, List.length_append, lit_len] <;> simp <;> omega

theorem dbgHeader_le {D : Deps} {P : PrintDeps} {A B : Nat} (hB : TextBound D P A B) {h : Header} (ht : h.tag < 2 ^ 32)
    (hl : ∀ n, h.length = .definite n → n < 2 ^ 64) : (dbgHeader P h).length ≤ B + 35 := by
  have h1 := hB.tag _ ht
  have h2 : (decimal h.tag).length ≤ 10 := decimal_le 9 _ (Nat.lt_trans ht (by decide))
  have e1 : (lit "[").length = 1 := by decide
  have e2 : (lit "]").length = 1 := by decide
  have e3 : (lit " ").length = 1 := by decide
  have e4 : (lit "+").length = 1 := by decide
  have e5 : (lit "Indefinite").length = 10 := by decide
  have h5 := hB.cls .application
  have h6 := hB.cls .priv
  obtain ⟨cls, con, tag, len, raw⟩ := h
  simp only at h1 h2 hl
  cases len with
  | definite n =>
    have h3 : (decimal n).length ≤ 20 := decimal_le 19 _ (Nat.lt_trans (hl n rfl) (by decide))
    cases con <;> cases cls <;> simp only [dbgHeader, List.length_append, e1, e2, e3, e4, if_true, Bool.false_eq_true,
      if_false, List.length_nil] <;> omega
  | indefinite =>
    cases con <;> cases cls <;> simp only [dbgHeader, List.length_append, e1, e2, e3, e4, e5, if_true, Bool.false_eq_true,
      if_false, List.length_nil] <;> omega

theorem intro_le {D : Deps} {P : PrintDeps} {A B : Nat} (hB : TextBound D P A B) (p : PrettyBer) {h : Header}
    (ht : h.tag < 2 ^ 32) (hl : ∀ n, h.length = .definite n → n < 2 ^ 64) :
    (p.intro P h).length ≤ p.indent + B + 36 := by
  have h1 := dbgHeader_le hB ht hl
  have e3 : (lit " ").length = 1 := by decide
  rw [intro_eq]
  split <;> simp only [List.length_append, List.length_replicate, e3, List.length_nil] <;> omega

/-- Text of the contents of a parsed object, without members. -/
theorem content_le {D : Deps} {P : PrintDeps} {A B : Nat} (hA : 5 ≤ A) (hB : TextBound D P A B) (p : PrettyBer)
    {h h' : Header} {k : Nat} {c : Bytes} {x : Content} (H : Denotes D k h c x) :
    (fmtContent P p h' (bare (.mk h' x)).content).length ≤ p.indent + A * payload x + B + 80 := by
  have ho : p.outro.length = p.indent := by rw [outro_eq, List.length_replicate]
  have hs : ∀ s : Bytes, 5 * s.length ≤ A * s.length := fun s => Nat.mul_le_mul_right _ hA
  have seq : ∀ x, x = .sequence [] ∨ x = .set [] → (fmtContent P p h' x).length ≤ p.indent + B + 80 := by
    intro x hx
    have e1 : (if h'.tag = Tag.sequence then lit "Sequence" else lit "Set").length ≤ 8 := by
      split <;> decide
    have e2 : (lit "[\n").length = 2 := by decide
    have e3 : (lit "]").length = 1 := by decide
    rcases hx with rfl | rfl <;> simp only [fmtContent] <;> split <;>
      (try simp only [List.length_append, fmtList, List.length_nil, ho]) <;> omega
  cases H with
  | sequence _ _ items _ _ _ _ _ => exact Nat.le_trans (seq _ (.inl rfl)) (by simp only [payload]; omega)
  | set _ _ items _ _ _ _ _ => exact Nat.le_trans (seq _ (.inr rfl)) (by simp only [payload]; omega)
  | leaf _ _ _ _ hL =>
    cases x <;> simp only [Leaf] at hL <;> simp only [bare, BerObject.content, fmtContent, payload, List.length_append]
    case endOfContent => have : (lit "EndOfContent").length ≤ 80 := by decide
                         omega
    case null => have : (lit "Null").length ≤ 80 := by decide
                 omega
    case boolean b =>
      have : (lit "Boolean(").length + (lit (if b then "true" else "false")).length + (lit ")").length ≤ 80 := by
        cases b <;> decide
      omega
    case integer s =>
      have := hB.hex s
      have : (lit "Integer(").length = 8 := by decide
      have : (lit ")").length = 1 := by decide
      omega
    case octetString s =>
      have := hB.hex s
      have : (lit "OctetString(").length = 12 := by decide
      have : (lit ")").length = 1 := by decide
      omega
    case oid s =>
      have := hB.oid false s
      have : (lit "OID(").length = 4 := by decide
      have : (lit ")").length = 1 := by decide
      omega
    case relativeOid s =>
      have := hB.oid true s
      have : (lit "RelativeOID(").length = 12 := by decide
      have : (lit ")").length = 1 := by decide
      omega
    case bitString u s =>
      have := hB.hex s
      have : (lit "BitString(").length = 10 := by decide
      have : (lit ",").length = 1 := by decide
      have : (lit ")").length = 1 := by decide
      have := decimal_le 2 u.toNat (Nat.lt_of_lt_of_le u.toNat_lt (by decide))
      rw [Nat.mul_add]
      omega
    case enum n =>
      have := decimal_le 9 n (Nat.lt_trans hL.2.2.2.2 (by decide))
      have : (lit "Enum(").length = 5 := by decide
      have : (lit ")").length = 1 := by decide
      omega
    case utcTime t =>
      have := hB.time _ _ t (.inl hL.2.2)
      have : (lit "UTCTime(\"").length = 9 := by decide
      have : (lit "\")").length = 2 := by decide
      omega
    case generalizedTime t =>
      have := hB.time _ _ t (.inr hL.2.2)
      have : (lit "GeneralizedTime(\"").length = 17 := by decide
      have : (lit "\")").length = 2 := by decide
      omega
    case str k s => have := str_le k s
                    have := hs s
                    omega
    case bmpString s => have := bmp_le s
                        have := hs s
                        omega
    case universalString s => have := universal_le s
                              have := hs s
                              omega
    case unknown a =>
      have := hB.hex a.data
      have : (lit "Unknown ").length = 8 := by decide
      omega

theorem own_le {D : Deps} {P : PrintDeps} {A B : Nat} (hA : 5 ≤ A) (hB : TextBound D P A B) (p : PrettyBer)
    {i rem : Bytes} {o o' : BerObject} (hr : Returned D i rem o) (hn : Node o' o) (d : Nat) :
    ownSize P p (o', d) ≤ A * payload o'.content + 2 * (p.indent + d * p.inc) + 2 * B + 120 := by
  obtain ⟨pre, e, post, c, -, hF, hc⟩ := returned_node hr hn
  obtain ⟨hb, -, hH, -⟩ := framed_infix hF
  cases o' with
  | mk h x =>
    simp only [BerObject.header, BerObject.content] at hc hH ⊢
    have ht : h.tag < 2 ^ 32 := by
      obtain ⟨_, _, num, -, -, -, ht, -⟩ := hH.octets
      rw [ht]
      exact Nat.mod_lt _ (by decide)
    have h1 := intro_le hB (p.inside d (.mk h x)) ht hH.length_lt
    have h2 : (fmtContent P (p.inside d (.mk h x)) h (bare (.mk h x)).content).length ≤
        p.indent + d * p.inc + A * payload x + B + 80 := by
      rcases hc with rfl | ⟨hd, k, -, -, -, hD⟩
      · have := hB.hex c
        have : (lit "Unknown ").length = 8 := by decide
        simp only [bare, BerObject.content, fmtContent, payload, List.length_append]
        omega
      · exact content_le hA hB (p.inside d (.mk h x)) hD
    have h3 : (p.inside d (.mk h x)).indent = p.indent + d * p.inc := rfl
    rw [h3] at h1
    rw [ownSize]
    have hbb : bare (.mk h x) = .mk h (bare (.mk h x)).content := by cases x <;> rfl
    rw [hbb, fmtObj, List.length_append]
    simp only at h2 ⊢
    omega

theorem sum_le {β : Type} (f g : β → Nat) : ∀ l : List β, (∀ e ∈ l, f e ≤ g e) → (l.map f).sum ≤ (l.map g).sum
  | [], _ => Nat.le_refl _
  | e :: l, h => by
    have h1 := h e List.mem_cons_self
    have h2 := sum_le f g l fun x hx => h x (List.mem_cons_of_mem _ hx)
    simp only [List.map_cons, List.sum_cons]
    omega

theorem sum_mul {β : Type} (F : Nat) (f : β → Nat) : ∀ l : List β, (l.map fun e => F * f e).sum = F * (l.map f).sum
  | [] => rfl
  | e :: l => by simp only [List.map_cons, List.sum_cons, sum_mul F f l, Nat.mul_add]

/-- C137: the text of a parsed object with less than `n` levels below its root has at most `F` octets for each octet that
was read, if `F` is at least what other crates write for an octet of contents, and at least the indentation of the
innermost objects and what other crates write besides, and 60. -/
theorem C137_linear (D : Deps) (P : PrintDeps) (A B n F : Nat) (hA : 5 ≤ A) (hB : TextBound D P A B) (p : PrettyBer)
    (hr : p.isFlagSet .recursive = true) (i rem : Bytes) (ho : Returned D i rem p.obj) (hn : depth p.obj ≤ n + 1)
    (h1 : A ≤ F) (h2 : p.indent + n * p.inc + B + 60 ≤ F) :
    (p.fmt P).length ≤ F * (i.length - rem.length) := by
  have h3 := text_sum P p hr p.obj 0 p.obj
  have h4 : p.inside 0 p.obj = p := by simp [PrettyBer.inside]
  rw [h4] at h3
  have h5 : ∀ e ∈ preorder p.obj 0, ownSize P p e ≤ F * (2 + payload e.1.content) := by
    intro e he
    have h6 : ownSize P p e ≤ _ := own_le hA hB p ho ((mem_preorder p.obj 0).1 ⟨e.2, he⟩) e.2
    have h7 := (C52_depth_range p.obj 0 e he).2
    have h8 : e.2 * p.inc ≤ n * p.inc := Nat.mul_le_mul_right _ (by omega)
    have h9 : A * payload e.1.content ≤ F * payload e.1.content := Nat.mul_le_mul_right _ h1
    rw [Nat.mul_add]
    omega
  have h6 := sum_le _ _ _ h5
  rw [sum_mul] at h6
  have h7 := C76_size D i rem p.obj 0 ho
  rw [PrettyBer.fmt, h3]
  refine Nat.le_trans h6 (Nat.mul_le_mul_left _ ?_)
  unfold totalSize at h7
  omega

/-- C137: for parse_ber the innermost objects are 49 levels below the root at most. -/
theorem C137_parse_ber (D : Deps) (P : PrintDeps) (A B F : Nat) (hA : 5 ≤ A) (hB : TextBound D P A B) (i rem : Bytes)
    (o : BerObject) (ho : parseBer D i = .ok (rem, o)) (indent inc : Nat) (h1 : A ≤ F)
    (h2 : indent + 49 * inc + B + 60 ≤ F) :
    ((o.asPretty indent inc).fmt P).length ≤ F * (i.length - rem.length) :=
  C137_linear D P A B 49 F hA hB (o.asPretty indent inc) rfl i rem (.inl ⟨50, ho⟩) (C13_depth_exact D 50 i rem o ho).1 h1 h2

theorem textBound_P0 : TextBound Tests.D0 Tests.P0 5 16 where
  hex s := by have := debugBytes_le s; simp only [Tests.P0]; omega
  oid _ s := by have := debugBytes_le s; simp only [Tests.P0]; omega
  tag n h := Nat.le_trans (decimal_le 9 n (Nat.lt_trans h (by decide))) (by decide)
  cls c := by cases c <;> decide
  time _ _ _ _ := (by decide : (lit "time").length ≤ 16)

example := C137_linear Tests.D0 Tests.P0 5 16 0 76 (by decide) textBound_P0
  ((BerObject.mk (Tests.h .universal false 5 0 [0x05]) .null).asPretty 0 2) rfl [0x05, 0x00, 9] [9] (.inl ⟨50, rfl⟩)
  (by decide) (by decide) (by decide)

/-- Two spaces for each level: at most 174 octets of text for each octet of input. -/
example := C137_parse_ber Tests.D0 Tests.P0 5 16 174 (by decide) textBound_P0 [0x30, 0x04, 0x31, 0x02, 0x05, 0x00, 9] [9] _
  rfl 0 2 (by decide) (by decide)

/-! ## Deep trees -/

/-- `k + 1` SEQUENCEs inside each other. -/
inductive Spec.Nest : Nat → BerObject → Prop
  | zero (h : Header) : Nest 0 (.mk h (.sequence []))
  | succ (k : Nat) (h : Header) (o : BerObject) : Nest k o → Nest (k + 1) (.mk h (.sequence [o]))

theorem nest_text {P : PrintDeps} {k : Nat} {o : BerObject} (H : Nest k o) : ∀ p : PrettyBer, p.isRecursive = true →
    2 * p.indent * (k + 1) + p.inc * (k * (k + 1)) ≤ (fmtObj P p o).length := by
  induction H with
  | zero h =>
    intro p hp
    simp only [fmtObj, fmtContent, hp, if_true, fmtList, List.length_append, intro_eq, outro_eq, List.length_replicate]
    omega
  | succ k h o _ ih =>
    intro p hp
    have h2 := ih (p.nextIndent o) hp
    simp only [fmtObj, fmtContent, hp, if_true, fmtList, List.length_append, intro_eq, outro_eq, List.length_replicate,
      PrettyBer.nextIndent] at h2 ⊢
    have h3 : 2 * (p.indent + p.inc) * (k + 1) + p.inc * (k * (k + 1)) + 2 * p.indent =
        2 * p.indent * (k + 1 + 1) + p.inc * ((k + 1) * (k + 1 + 1)) := by
      simp only [Nat.mul_add, Nat.add_mul, Nat.mul_one, Nat.one_mul, Nat.mul_assoc, Nat.mul_comm p.inc]
      omega
    omega

theorem nest_seq : ∀ k, Nest k (Tests.nestSeq k)
  | 0 => .zero _
  | k + 1 => .succ k _ _ (nest_seq k)

theorem nest_erase {k : Nat} {o : BerObject} (H : Nest k o) : ∀ o', erase o' = erase o → Nest k o' := by
  induction H with
  | zero h =>
    rintro ⟨h', x⟩ he
    simp only [erase, BerObject.mk.injEq] at he
    cases x <;> simp only [eraseC, reduceCtorEq, and_false, Content.sequence.injEq] at he
    rename_i l
    cases l with
    | nil => exact .zero _
    | cons a l => simp [eraseL] at he
  | succ k h o _ ih =>
    rintro ⟨h', x⟩ he
    simp only [erase, BerObject.mk.injEq] at he
    cases x <;> simp only [eraseC, reduceCtorEq, and_false, Content.sequence.injEq] at he
    rename_i l
    match l with
    | [] => simp [eraseL] at he
    | [a] =>
      simp only [eraseL, List.cons.injEq, and_true] at he
      exact .succ _ _ _ (ih a he.2)
    | _ :: _ :: _ => simp [eraseL] at he

theorem wf_nestSeq (D : Deps) : ∀ k, Wf D (k + 1) (Tests.nestSeq k)
  | 0 => .sequence 0 _ _ rfl rfl rfl (by simp)
  | k + 1 => .sequence (k + 1) _ _ rfl rfl rfl (by
      intro o ho
      rw [List.mem_singleton] at ho
      rw [ho]
      exact wf_nestSeq D k)

/-- C137: without a limit for the levels the text is not linear: there are inputs of at most `10 * (k + 1)` octets that
`parse_ber_recursive` with limit `k + 1` accepts, and the text has at least `inc * k * (k + 1)` octets. -/
theorem C137_quadratic (D : Deps) (P : PrintDeps) (k indent inc : Nat) (hk : 10 * (k + 1) < 2 ^ 64) :
    ∃ i o, i.length ≤ 10 * (k + 1) ∧ parseBerRecursive D (k + 1) i = .ok ([], o) ∧
      inc * (k * (k + 1)) ≤ ((o.asPretty indent inc).fmt P).length := by
  obtain ⟨b, h1, h2, -⟩ := C130_quadratic D k
  obtain ⟨v, x, -, hF, hD, hx⟩ := wf_object (wf_nestSeq D k) h1 (by omega)
  refine ⟨b, .mk _ x, h2, parseBerRecursive_iff.2 ⟨b, v, (List.append_nil _).symm, hF, hD⟩, ?_⟩
  have hN := nest_erase (nest_seq k) (.mk (Tests.nestSeq k).header x) (by
    cases hs : Tests.nestSeq k with
    | mk h c =>
      rw [hs] at hx
      simp only [erase, BerObject.header_mk, BerObject.mk.injEq, true_and]
      exact hx)
  have hN' : ∀ h, Nest k (.mk h x) := by
    intro h
    cases hN with
    | zero => exact .zero _
    | succ k _ o ho => exact .succ _ _ _ ho
  exact Nat.le_trans (Nat.le_add_left _ _) (nest_text (hN' _) ((BerObject.mk _ x).asPretty indent inc) rfl)

example := C137_quadratic Tests.D0 Tests.P0 1000 0 2 (by decide)

end Verif
