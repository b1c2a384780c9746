import Verif.Formatter
import Verif.Props.Nesting
/-!
# C114: printing into any formatter
-/
namespace Verif
open Outcome

namespace Spec

/-- `view` shows the text that an output holds: a piece that is accepted is added at the end, of one that is
refused at most a part at its beginning. -/
structure Records {σ : Type} (S : Sink σ) (view : σ → Bytes) : Prop where
  taken : ∀ s t, (S.writeStr s t).2 = true → view (S.writeStr s t).1 = view s ++ t
  refused : ∀ s t, (S.writeStr s t).2 = false → ∃ t', t' <+: t ∧ view (S.writeStr s t).1 = view s ++ t'

/-- An output that refuses nothing. -/
def Reliable {σ : Type} (S : Sink σ) : Prop := ∀ s t, (S.writeStr s t).2 = true

/-- The same output, with a record of the answers to the calls of `write_str`. -/
def logged {σ : Type} (S : Sink σ) : Sink (σ × List Bool) where
  writeStr s t := (((S.writeStr s.1 t).1, s.2 ++ [(S.writeStr s.1 t).2]), (S.writeStr s.1 t).2)
  pieces := S.pieces
  pieces_flatten := S.pieces_flatten

/-- An indentation that cannot be computed or is refused as a width. -/
def TooWide (T : FmtTarget) (n : Nat) : Prop :=
  2 ^ T.target.bits ≤ n ∨ ∃ w, T.maxWidth = some w ∧ w < n

/-- Sums of indentations do not wrap around: they panic, or are small enough. -/
def NoWrap (T : FmtTarget) (p : PrettyBer) : Prop :=
  T.target.checked = true ∨
    ∀ n, Descent (PrintStep p.isRecursive) p.obj n → p.indent + n * p.inc < 2 ^ T.target.bits

end Spec

open Spec

/-! ## The printer as a list of writes -/

section
variable {σ : Type}

/-- Writes (`some`) up to a panic (`none`). -/
def Fm.exec (S : Sink σ) : List (Option Bytes) → Fm σ
  | [] => .ok
  | none :: _ => .panic
  | some t :: l => (Fm.put S t).andThen (Fm.exec S l)

theorem Fm.andThen_ok (x : Fm σ) : x.andThen .ok = x := by
  funext s
  unfold Fm.andThen Fm.ok
  rcases x s with ⟨s', e⟩
  cases e <;> rfl

theorem Fm.ok_andThen (x : Fm σ) : Fm.ok.andThen x = x := rfl

theorem Fm.andThen_assoc (x y z : Fm σ) : (x.andThen y).andThen z = x.andThen (y.andThen z) := by
  funext s
  unfold Fm.andThen
  rcases x s with ⟨s', e⟩
  cases e <;> rfl

theorem Fm.exec_append (S : Sink σ) (a b : List (Option Bytes)) :
    Fm.exec S (a ++ b) = (Fm.exec S a).andThen (Fm.exec S b) := by
  induction a with
  | nil => rfl
  | cons x a ih =>
    cases x with
    | none => rfl
    | some t => rw [List.cons_append, Fm.exec, Fm.exec, ih, Fm.andThen_assoc]

theorem Fm.exec_one (S : Sink σ) (t : Bytes) : Fm.exec S [some t] = Fm.put S t := Fm.andThen_ok _

end

/-- The writes of an indentation. -/
def indentScript (T : FmtTarget) (p : PrettyBer) : List (Option Bytes) :=
  if 0 < p.indent then (if T.refuses p.indent then [none] else [some (spaces p.indent)]) else []

/-- The writes before the content. -/
def introScript (T : FmtTarget) (P : PrintDeps) (p : PrettyBer) (h : Header) : List (Option Bytes) :=
  indentScript T p ++ if p.flags.contains .showHeader then [some (dbgHeader P h), some (lit " ")] else []

/-- The writes of a nested object. -/
def nextScript (T : FmtTarget) (p : PrettyBer) (o : BerObject) (k : PrettyBer → List (Option Bytes)) :
    List (Option Bytes) :=
  match T.target.word (ε := Empty) (p.indent + p.inc) with
  | .ok n => k { obj := o, indent := n, inc := p.inc, flags := p.flags }
  | _ => [none]

mutual
/-- The writes of the printer. -/
def objScript (T : FmtTarget) (P : PrintDeps) (p : PrettyBer) : BerObject → List (Option Bytes)
  | .mk h c => introScript T P p h ++ contentScript T P p h c
def contentScript (T : FmtTarget) (P : PrintDeps) (p : PrettyBer) (h : Header) : Content → List (Option Bytes)
  | .tagged cls tag o =>
    [some (lit "ContextSpecific [" ++ P.cls cls ++ lit " " ++ decimal tag ++ lit "] {\n")] ++
      (nextScript T p o fun q => objScript T P q o) ++ indentScript T p ++ [some (lit "}")]
  | .set v =>
    let ty := if h.tag = Tag.sequence then lit "Sequence" else lit "Set"
    if p.isRecursive then [some (ty ++ lit "[\n")] ++ listScript T P p v ++ indentScript T p ++ [some (lit "]")]
    else [some ty]
  | .sequence v =>
    let ty := if h.tag = Tag.sequence then lit "Sequence" else lit "Set"
    if p.isRecursive then [some (ty ++ lit "[\n")] ++ listScript T P p v ++ indentScript T p ++ [some (lit "]")]
    else [some ty]
  | c => [some (fmtContent P p h c)]
def listScript (T : FmtTarget) (P : PrintDeps) (p : PrettyBer) : List BerObject → List (Option Bytes)
  | [] => []
  | o :: os => (nextScript T p o fun q => objScript T P q o) ++ listScript T P p os
end

section
variable {σ : Type} (T : FmtTarget) (S : Sink σ) (P : PrintDeps)

theorem indentF_exec (p : PrettyBer) : p.indentF T S = Fm.exec S (indentScript T p) := by
  unfold PrettyBer.indentF indentScript
  split
  · split
    · rfl
    · rw [Fm.exec_one]
  · rfl

theorem introF_exec (p : PrettyBer) (h : Header) : p.introF T S P h = Fm.exec S (introScript T P p h) := by
  unfold PrettyBer.introF introScript
  rw [Fm.exec_append, indentF_exec]
  split
  · rw [show [some (dbgHeader P h), some (lit " ")] = [some (dbgHeader P h)] ++ [some (lit " ")] from rfl,
      Fm.exec_append, Fm.exec_one, Fm.exec_one]
  · rfl

theorem withNext_exec (p : PrettyBer) (o : BerObject) (k : PrettyBer → Fm σ) (l : PrettyBer → List (Option Bytes))
    (h : ∀ q, k q = Fm.exec S (l q)) : p.withNext T o k = Fm.exec S (nextScript T p o l) := by
  unfold PrettyBer.withNext nextScript
  cases T.target.word (ε := Empty) (p.indent + p.inc) with
  | ok n => exact h _
  | err e => rfl
  | panic => rfl
  | diverge => rfl

mutual
theorem fmtObjF_exec (p : PrettyBer) (o : BerObject) : fmtObjF T S P p o = Fm.exec S (objScript T P p o) := by
  match o with
  | .mk h c => rw [fmtObjF, objScript, Fm.exec_append, introF_exec, fmtContentF_exec p h c]
theorem fmtContentF_exec (p : PrettyBer) (h : Header) (c : Content) :
    fmtContentF T S P p h c = Fm.exec S (contentScript T P p h c) := by
  match c with
  | .tagged cls tag o =>
    rw [fmtContentF, contentScript, Fm.exec_append, Fm.exec_append, Fm.exec_append, Fm.exec_one, Fm.exec_one,
      indentF_exec, withNext_exec T S p o _ _ (fun q => fmtObjF_exec q o)]
    simp only [Fm.andThen_assoc]
  | .set v =>
    rw [fmtContentF, contentScript]
    split
    · rw [Fm.exec_append, Fm.exec_append, Fm.exec_append, Fm.exec_one, Fm.exec_one, indentF_exec,
        fmtListF_exec p v]
      simp only [Fm.andThen_assoc]
    · rw [Fm.exec_one]
  | .sequence v =>
    rw [fmtContentF, contentScript]
    split
    · rw [Fm.exec_append, Fm.exec_append, Fm.exec_append, Fm.exec_one, Fm.exec_one, indentF_exec,
        fmtListF_exec p v]
      simp only [Fm.andThen_assoc]
    · rw [Fm.exec_one]
  | .boolean _ | .integer _ | .octetString _ | .enum _ | .oid _ | .null | .bitString _ _ | .optionalSome _
  | .relativeOid _ | .str _ _ | .utcTime _ | .generalizedTime _ | .bmpString _
  | .universalString _ | .optionalNone | .endOfContent | .unknown _ =>
    rw [fmtContentF, contentScript, Fm.exec_one] <;> simp
theorem fmtListF_exec (p : PrettyBer) (l : List BerObject) :
    fmtListF T S P p l = Fm.exec S (listScript T P p l) := by
  match l with
  | [] => rw [fmtListF, listScript, Fm.exec]
  | o :: os =>
    rw [fmtListF, listScript, Fm.exec_append, withNext_exec T S p o _ _ (fun q => fmtObjF_exec q o),
      fmtListF_exec p os]
end

end

/-! ## The text of the writes -/

/-- The text written before the first panic. -/
def scriptText : List (Option Bytes) → Bytes
  | [] => []
  | none :: _ => []
  | some t :: l => t ++ scriptText l

/-- The writes give the text, unless a panic cuts it. -/
def Gives (l : List (Option Bytes)) (t : Bytes) : Prop :=
  scriptText l <+: t ∧ (none ∉ l → scriptText l = t)

theorem gives_nil : Gives [] [] := ⟨List.prefix_refl _, fun _ => rfl⟩

theorem gives_none (l : List (Option Bytes)) (t : Bytes) : Gives (none :: l) t :=
  ⟨List.nil_prefix, fun h => absurd (List.mem_cons_self ..) h⟩

theorem gives_cons (t : Bytes) {l : List (Option Bytes)} {u : Bytes} (h : Gives l u) : Gives (some t :: l) (t ++ u) := by
  refine ⟨?_, fun hn => ?_⟩
  · rw [scriptText]
    exact (List.prefix_append_right_inj t).2 h.1
  · rw [scriptText, h.2 fun hm => hn (List.mem_cons_of_mem _ hm)]

theorem gives_one (t : Bytes) : Gives [some t] t := by
  have := gives_cons t gives_nil
  rwa [List.append_nil] at this

theorem gives_append {a b : List (Option Bytes)} {t u : Bytes} (ha : Gives a t) (hb : Gives b u) :
    Gives (a ++ b) (t ++ u) := by
  induction a generalizing t with
  | nil => rw [← ha.2 (by simp)]; exact hb
  | cons x a ih =>
    cases x with
    | none => exact gives_none _ _
    | some v =>
      obtain ⟨w, rfl⟩ : ∃ w, t = v ++ w := by
        obtain ⟨w, hw⟩ := ha.1
        exact ⟨scriptText a ++ w, by rw [← hw, scriptText, List.append_assoc]⟩
      have : Gives a w := by
        refine ⟨(List.prefix_append_right_inj v).1 ha.1, fun hn => ?_⟩
        exact List.append_cancel_left (ha.2 (by simpa using hn))
      rw [List.cons_append, List.append_assoc]
      exact gives_cons v (ih this)

theorem gives_indent (T : FmtTarget) (p : PrettyBer) :
    Gives (indentScript T p) (if 0 < p.indent then spaces p.indent else []) := by
  unfold indentScript
  split
  · split
    · exact gives_none _ _
    · exact gives_one _
  · exact gives_nil

theorem gives_intro (T : FmtTarget) (P : PrintDeps) (p : PrettyBer) (h : Header) :
    Gives (introScript T P p h) (p.intro P h) := by
  unfold introScript PrettyBer.intro
  refine gives_append (gives_indent T p) ?_
  split
  · exact gives_cons _ (gives_one _)
  · exact gives_nil

/-- `NoWrap` for an object in the place of the printed one. -/
abbrev noWrap (T : FmtTarget) (p : PrettyBer) (o : BerObject) : Prop :=
  NoWrap T { p with obj := o }

theorem noWrap_step {T : FmtTarget} {p : PrettyBer} {o o' : BerObject} (h : noWrap T p o)
    (hs : PrintStep p.isRecursive o o' 1) : noWrap T (p.nextIndent o') o' := by
  rcases h with h | h
  · exact .inl h
  · refine .inr fun n hn => ?_
    have := h (n + 1) (.down _ _ _ _ hs hn)
    simp only [PrettyBer.nextIndent] at *
    rw [Nat.add_mul] at this
    omega

theorem gives_next {T : FmtTarget} {p : PrettyBer} {o o' : BerObject} (h : noWrap T p o)
    (hs : PrintStep p.isRecursive o o' 1) {k : PrettyBer → List (Option Bytes)} {t : Bytes}
    (hk : Gives (k (p.nextIndent o')) t) : Gives (nextScript T p o' k) t := by
  unfold nextScript Target.word
  by_cases hw : p.indent + p.inc < 2 ^ T.target.bits
  · rw [if_pos hw]
    exact hk
  · rw [if_neg hw]
    rcases h with h | h
    · rw [show T.target.checked = true from h]
      exact gives_none _ _
    · have := h 1 (.down _ _ _ _ hs (.stop _))
      simp only [Nat.one_mul] at this
      exact absurd this hw

mutual
theorem gives_obj (T : FmtTarget) (P : PrintDeps) (p : PrettyBer) (o : BerObject) (h : noWrap T p o) :
    Gives (objScript T P p o) (fmtObj P p o) := by
  match o with
  | .mk hd c =>
    rw [objScript, fmtObj]
    exact gives_append (gives_intro T P p hd) (gives_content T P p hd c h)
theorem gives_content (T : FmtTarget) (P : PrintDeps) (p : PrettyBer) (hd : Header) (c : Content)
    (h : noWrap T p (.mk hd c)) : Gives (contentScript T P p hd c) (fmtContent P p hd c) := by
  match c with
  | .tagged cls tag o =>
    have hs : PrintStep p.isRecursive (.mk hd (.tagged cls tag o)) o 1 := .tagged ..
    rw [contentScript, fmtContent]
    exact gives_append (gives_append (gives_append (gives_one _) (gives_next h hs
      (gives_obj T P _ o (noWrap_step h hs)))) (gives_indent T p)) (gives_one _)
  | .set v =>
    rw [contentScript, fmtContent]
    split
    · rename_i hr
      have hl : ∀ x ∈ v, PrintStep p.isRecursive (.mk hd (.set v)) x 1 := fun x hx => .set _ _ _ hr hx
      refine gives_append (gives_append (gives_append (gives_one _) ?_) (gives_indent T p)) (gives_one _)
      exact gives_list T P p _ h v hl
    · exact gives_one _
  | .sequence v =>
    rw [contentScript, fmtContent]
    split
    · rename_i hr
      have hl : ∀ x ∈ v, PrintStep p.isRecursive (.mk hd (.sequence v)) x 1 := fun x hx => .sequence _ _ _ hr hx
      refine gives_append (gives_append (gives_append (gives_one _) ?_) (gives_indent T p)) (gives_one _)
      exact gives_list T P p _ h v hl
    · exact gives_one _
  | .boolean _ | .integer _ | .octetString _ | .enum _ | .oid _ | .null | .bitString _ _ | .optionalSome _
  | .relativeOid _ | .str _ _ | .utcTime _ | .generalizedTime _ | .bmpString _
  | .universalString _ | .optionalNone | .endOfContent | .unknown _ =>
    rw [contentScript] <;> first | exact gives_one _ | simp
theorem gives_list (T : FmtTarget) (P : PrintDeps) (p : PrettyBer) (o : BerObject) (h : noWrap T p o)
    (l : List BerObject) (hl : ∀ x ∈ l, PrintStep p.isRecursive o x 1) :
    Gives (listScript T P p l) (fmtList P p l) := by
  match l with
  | [] => rw [listScript, fmtList]; exact gives_nil
  | x :: xs =>
    rw [listScript, fmtList]
    exact gives_append (gives_next h (hl x (by simp)) (gives_obj T P _ x (noWrap_step h (hl x (by simp)))))
      (gives_list T P p o h xs fun y hy => hl y (by simp [hy]))
end

/-! ## When the printer panics -/

theorem none_indent (T : FmtTarget) (p : PrettyBer) :
    none ∈ indentScript T p ↔ ∃ w, T.maxWidth = some w ∧ w < p.indent := by
  unfold indentScript FmtTarget.refuses
  cases T.maxWidth with
  | none => simp
  | some w =>
    by_cases h : w < p.indent
    · simp [h, show 0 < p.indent by omega]
    · simp [h]

theorem none_intro (T : FmtTarget) (P : PrintDeps) (p : PrettyBer) (h : Header) :
    none ∈ introScript T P p h ↔ ∃ w, T.maxWidth = some w ∧ w < p.indent := by
  unfold introScript
  rw [List.mem_append, none_indent]
  split <;> simp

/-- Some nested object is too far to the right. -/
def Overflows (T : FmtTarget) (p : PrettyBer) (o : BerObject) : Prop :=
  ∃ n, Descent (PrintStep p.isRecursive) o n ∧ TooWide T (p.indent + n * p.inc)

theorem none_next {T : FmtTarget} {p : PrettyBer} {x o : BerObject} (hw' : noWrap T p x)
    (hs : PrintStep p.isRecursive x o 1) (k : PrettyBer → List (Option Bytes)) (hi : p.indent + p.inc < 2 ^ T.target.bits →
      (none ∈ k (p.nextIndent o) ↔ Overflows T (p.nextIndent o) o)) :
    none ∈ nextScript T p o k ↔ Overflows T (p.nextIndent o) o := by
  unfold nextScript Target.word
  by_cases hw : p.indent + p.inc < 2 ^ T.target.bits
  · rw [if_pos hw]
    exact hi hw
  · rw [if_neg hw]
    rcases hw' with hc | hn
    · rw [show T.target.checked = true from hc]
      simp only [↓reduceIte, List.mem_singleton, true_iff]
      refine ⟨0, .stop _, .inl ?_⟩
      simp only [PrettyBer.nextIndent]
      omega
    · have := hn 1 (.down _ _ _ _ hs (.stop _))
      simp only [Nat.one_mul] at this
      exact absurd this hw

theorem tooWide_mono {T : FmtTarget} {a b : Nat} (h : TooWide T a) (hab : a ≤ b) : TooWide T b := by
  rcases h with h | ⟨w, h1, h2⟩
  · exact .inl (by omega)
  · exact .inr ⟨w, h1, by omega⟩

theorem overflows_step {T : FmtTarget} {p : PrettyBer} {o o' : BerObject} (hs : PrintStep p.isRecursive o o' 1)
    (h : Overflows T (p.nextIndent o') o') : Overflows T p o := by
  obtain ⟨n, h1, h2⟩ := h
  refine ⟨n + 1, .down _ _ _ _ hs h1, ?_⟩
  simp only [PrettyBer.nextIndent] at h2
  rw [Nat.add_mul]
  exact tooWide_mono h2 (by omega)

theorem overflows_cases {T : FmtTarget} {p : PrettyBer} {o : BerObject} (hb : p.indent < 2 ^ T.target.bits)
    (h : Overflows T p o) : (∃ w, T.maxWidth = some w ∧ w < p.indent) ∨
      ∃ o', PrintStep p.isRecursive o o' 1 ∧ Overflows T (p.nextIndent o') o' := by
  obtain ⟨n, h1, h2⟩ := h
  cases h1 with
  | stop =>
    rcases h2 with h2 | h2
    · omega
    · left
      simpa using h2
  | down _ o' k m hs hd =>
    have hk : k = 1 := by cases hs <;> rfl
    subst hk
    right
    refine ⟨o', hs, m, hd, ?_⟩
    simp only [PrettyBer.nextIndent]
    rw [Nat.add_mul] at h2
    exact tooWide_mono h2 (by omega)

theorem overflows_intro {T : FmtTarget} {p : PrettyBer} {o : BerObject}
    (h : ∃ w, T.maxWidth = some w ∧ w < p.indent) : Overflows T p o := by
  refine ⟨0, .stop _, .inr ?_⟩
  simpa using h

mutual
theorem none_obj {T : FmtTarget} (P : PrintDeps) (p : PrettyBer) (hb : p.indent < 2 ^ T.target.bits)
    (o : BerObject) (hw : noWrap T p o) : none ∈ objScript T P p o ↔ Overflows T p o := by
  match o with
  | .mk h c =>
    rw [objScript, List.mem_append, none_intro]
    constructor
    · rintro (h' | h')
      · exact overflows_intro h'
      · exact (none_content P p h c hw).1 h'
    · intro h'
      rcases overflows_cases hb h' with h1 | h1
      · exact .inl h1
      · exact .inr ((none_content P p h c hw).2 h1)
theorem none_content {T : FmtTarget} (P : PrintDeps) (p : PrettyBer) (h : Header) (c : Content)
    (hw : noWrap T p (.mk h c)) :
    (none ∈ contentScript T P p h c → Overflows T p (.mk h c)) ∧
    ((∃ o', PrintStep p.isRecursive (.mk h c) o' 1 ∧ Overflows T (p.nextIndent o') o') →
      none ∈ contentScript T P p h c) := by
  match c with
  | .tagged cls tag o =>
    have hs : PrintStep p.isRecursive (.mk h (.tagged cls tag o)) o 1 := .tagged ..
    have hn := none_next hw hs (fun q => objScript T P q o) fun hi =>
      none_obj P (p.nextIndent o) hi o (noWrap_step hw hs)
    rw [contentScript]
    simp only [List.mem_append, hn, none_indent, List.mem_singleton, reduceCtorEq, false_or, or_false]
    refine ⟨?_, ?_⟩
    · rintro (h' | h')
      · exact overflows_step (.tagged ..) h'
      · exact overflows_intro h'
    · rintro ⟨o', hs, h'⟩
      cases hs
      exact .inl h'
  | .set v =>
    rw [contentScript]
    by_cases hr : p.isRecursive = true
    · rw [if_pos hr]
      have hl := none_list P p _ hw v fun x hx => .set _ _ _ hr hx
      simp only [List.mem_append, hl, none_indent, List.mem_singleton, reduceCtorEq, false_or,
        or_false]
      refine ⟨?_, ?_⟩
      · rintro (⟨x, hx, h'⟩ | h')
        · exact overflows_step (.set _ _ _ hr hx) h'
        · exact overflows_intro h'
      · rintro ⟨o', hs, h'⟩
        cases hs with
        | set _ _ _ _ hx => exact .inl ⟨o', hx, h'⟩
    · rw [if_neg hr]
      refine ⟨fun h' => by simp at h', ?_⟩
      rintro ⟨o', hs, h'⟩
      cases hs with
      | set _ _ _ hr' _ => exact absurd hr' hr
  | .sequence v =>
    rw [contentScript]
    by_cases hr : p.isRecursive = true
    · rw [if_pos hr]
      have hl := none_list P p _ hw v fun x hx => .sequence _ _ _ hr hx
      simp only [List.mem_append, hl, none_indent, List.mem_singleton, reduceCtorEq, false_or,
        or_false]
      refine ⟨?_, ?_⟩
      · rintro (⟨x, hx, h'⟩ | h')
        · exact overflows_step (.sequence _ _ _ hr hx) h'
        · exact overflows_intro h'
      · rintro ⟨o', hs, h'⟩
        cases hs with
        | sequence _ _ _ _ hx => exact .inl ⟨o', hx, h'⟩
    · rw [if_neg hr]
      refine ⟨fun h' => by simp at h', ?_⟩
      rintro ⟨o', hs, h'⟩
      cases hs with
      | sequence _ _ _ hr' _ => exact absurd hr' hr
  | .boolean _ | .integer _ | .octetString _ | .enum _ | .oid _ | .null | .bitString _ _ | .optionalSome _
  | .relativeOid _ | .str _ _ | .utcTime _ | .generalizedTime _ | .bmpString _
  | .universalString _ | .optionalNone | .endOfContent | .unknown _ =>
    refine ⟨fun h' => ?_, fun ⟨o', hs, _⟩ => by cases hs⟩
    rw [contentScript] at h' <;> first | exact absurd h' (by simp) | simp
theorem none_list {T : FmtTarget} (P : PrintDeps) (p : PrettyBer) (o : BerObject) (hw : noWrap T p o)
    (l : List BerObject) (hl : ∀ x ∈ l, PrintStep p.isRecursive o x 1) : none ∈ listScript T P p l ↔ ∃ x ∈ l, Overflows T (p.nextIndent x) x := by
  match l with
  | [] => simp [listScript]
  | x :: xs =>
    have hn := none_next hw (hl x (by simp)) (fun q => objScript T P q x) fun hi =>
      none_obj P (p.nextIndent x) hi x (noWrap_step hw (hl x (by simp)))
    rw [listScript, List.mem_append, hn, none_list P p o hw xs fun y hy => hl y (by simp [hy])]
    simp
end

/-! ## Running the writes -/

section
variable {σ : Type} {S : Sink σ}

theorem putAll_records {view : σ → Bytes} (hS : Records S view) (ts : List Bytes) (s : σ) :
    (Fm.putAll S ts s).2 ≠ .panicked ∧ ∃ t', t' <+: ts.flatten ∧ view (Fm.putAll S ts s).1 = view s ++ t' ∧
      ((Fm.putAll S ts s).2 = .done → t' = ts.flatten) := by
  induction ts generalizing s with
  | nil => exact ⟨by simp [Fm.putAll], [], List.prefix_refl _, by simp [Fm.putAll], fun _ => rfl⟩
  | cons t ts ih =>
    rw [Fm.putAll]
    by_cases h : (S.writeStr s t).2 = true
    · rw [if_pos h]
      obtain ⟨h0, t', h1, h2, h3⟩ := ih (S.writeStr s t).1
      refine ⟨h0, t ++ t', ?_, ?_, fun hd => ?_⟩
      · rw [List.flatten_cons]; exact (List.prefix_append_right_inj t).2 h1
      · rw [h2, hS.taken _ _ h, List.append_assoc]
      · rw [h3 hd, List.flatten_cons]
    · rw [if_neg h]
      obtain ⟨t', h1, h2⟩ := hS.refused s t (by simpa using h)
      refine ⟨by simp, t', ?_, h2, fun hd => by cases hd⟩
      rw [List.flatten_cons]
      exact h1.trans (List.prefix_append _ _)

theorem exec_records {view : σ → Bytes} (hS : Records S view) (l : List (Option Bytes)) (s : σ) :
    ∃ t', t' <+: scriptText l ∧ view (Fm.exec S l s).1 = view s ++ t' ∧
      ((Fm.exec S l s).2 ≠ .failed → t' = scriptText l) ∧ ((Fm.exec S l s).2 = .done → none ∉ l) := by
  induction l generalizing s with
  | nil => exact ⟨[], List.prefix_refl _, by simp [Fm.exec, Fm.ok], fun _ => rfl, by simp⟩
  | cons x l ih =>
    cases x with
    | none => exact ⟨[], List.prefix_refl _, by simp [Fm.exec, Fm.panic], fun _ => rfl, by simp [Fm.exec, Fm.panic]⟩
    | some t =>
      obtain ⟨h0, t', h1, h2, h3⟩ := putAll_records hS (S.pieces t) s
      rw [S.pieces_flatten] at h1 h3
      rw [Fm.exec, Fm.andThen, Fm.put]
      rcases hr : Fm.putAll S (S.pieces t) s with ⟨s', e⟩
      rw [hr] at h0 h2 h3
      dsimp only at h0 h2 h3
      cases e with
      | done =>
        obtain ⟨u, g1, g2, g3, g4⟩ := ih s'
        have ht := h3 rfl
        subst ht
        refine ⟨t' ++ u, (List.prefix_append_right_inj t').2 g1, ?_, fun hd => ?_, fun hd => ?_⟩
        · dsimp only; rw [g2, h2, List.append_assoc]
        · rw [scriptText, g3 hd]
        · simpa using g4 hd
      | failed =>
        refine ⟨t', h1.trans (List.prefix_append _ _), h2, fun hd => absurd rfl hd, fun hd => by cases hd⟩
      | panicked => exact absurd rfl h0

theorem putAll_reliable (hS : Reliable S) (ts : List Bytes) (s : σ) : (Fm.putAll S ts s).2 = .done := by
  induction ts generalizing s with
  | nil => rfl
  | cons t ts ih =>
    rw [Fm.putAll]
    rw [if_pos (hS s t)]
    exact ih _

theorem exec_reliable (hS : Reliable S) (l : List (Option Bytes)) (s : σ) :
    (Fm.exec S l s).2 = if none ∈ l then .panicked else .done := by
  induction l generalizing s with
  | nil => rfl
  | cons x l ih =>
    cases x with
    | none => simp [Fm.exec, Fm.panic]
    | some t =>
      rw [Fm.exec, Fm.andThen, Fm.put]
      have := putAll_reliable hS (S.pieces t) s
      rcases hr : Fm.putAll S (S.pieces t) s with ⟨s', e⟩
      rw [hr] at this
      dsimp only at this
      subst this
      dsimp only
      rw [ih]
      simp

/-- How a record of answers grows: all accepted, but for a last one if the function failed. -/
def LogGrows (before after : List Bool) (e : FmtEnd) : Prop :=
  ∃ n, after = before ++ List.replicate n true ++ if e = .failed then [false] else []

theorem logGrows_trans {a b c : List Bool} {e : FmtEnd} (h1 : LogGrows a b .done) (h2 : LogGrows b c e) :
    LogGrows a c e := by
  obtain ⟨n, rfl⟩ := h1
  obtain ⟨m, rfl⟩ := h2
  refine ⟨n + m, ?_⟩
  simp only [reduceCtorEq, ↓reduceIte, List.append_nil, List.append_assoc, ← List.replicate_append_replicate]

theorem putAll_logged (ts : List Bytes) (s : σ × List Bool) :
    LogGrows s.2 (Fm.putAll (logged S) ts s).1.2 (Fm.putAll (logged S) ts s).2 := by
  induction ts generalizing s with
  | nil => exact ⟨0, by simp [Fm.putAll]⟩
  | cons t ts ih =>
    rw [Fm.putAll]
    by_cases h : (S.writeStr s.1 t).2 = true
    · rw [if_pos (show ((logged S).writeStr s t).2 = true from h)]
      refine logGrows_trans ⟨1, ?_⟩ (ih _)
      simp [logged, h]
    · rw [if_neg (show ¬ ((logged S).writeStr s t).2 = true from h)]
      refine ⟨0, ?_⟩
      simp [logged, h]

theorem exec_logged (l : List (Option Bytes)) (s : σ × List Bool) :
    LogGrows s.2 (Fm.exec (logged S) l s).1.2 (Fm.exec (logged S) l s).2 := by
  induction l generalizing s with
  | nil => exact ⟨0, by simp [Fm.exec, Fm.ok]⟩
  | cons x l ih =>
    cases x with
    | none => exact ⟨0, by simp [Fm.exec, Fm.panic]⟩
    | some t =>
      have := putAll_logged (S := S) ((logged S).pieces t) s
      rw [Fm.exec, Fm.andThen, Fm.put]
      rcases hr : Fm.putAll (logged S) ((logged S).pieces t) s with ⟨s', e⟩
      rw [hr] at this
      cases e with
      | done => exact logGrows_trans this (ih s')
      | failed => exact this
      | panicked => exact this

end

/-! ## The property -/

/-- C114: whatever the output, what has been written is a beginning of the text; all of it if the answer is
`Ok`. -/
theorem C114_prefix {σ : Type} (T : FmtTarget) (S : Sink σ) (view : σ → Bytes) (hS : Records S view) (P : PrintDeps)
    (p : PrettyBer) (hw : NoWrap T p) (s : σ) :
    ∃ t, t <+: p.fmt P ∧ view (p.fmtF T S P s).1 = view s ++ t ∧ ((p.fmtF T S P s).2 = .done → t = p.fmt P) := by
  have hg := gives_obj T P p p.obj hw
  obtain ⟨t, h1, h2, h3, h4⟩ := exec_records hS (objScript T P p p.obj) s
  rw [PrettyBer.fmtF, fmtObjF_exec, PrettyBer.fmt]
  refine ⟨t, h1.trans hg.1, h2, fun hd => ?_⟩
  rw [h3 (by rw [hd]; simp), hg.2 (h4 hd)]

/-- With overflow checks, into a string, of which the octets are recorded. -/
example (P : PrintDeps) (o : BerObject) := C114_prefix ⟨⟨64, true⟩, some 65535⟩ stringSink (fun s => s)
  ⟨fun _ _ _ => rfl, fun _ _ h => by cases h⟩ P (o.asPretty 4 2) (.inl rfl) []

/-- C114: the first refusal ends the printing with an error: every call of `write_str` before the last was
accepted, and the last was refused exactly if the answer is `Err`. -/
theorem C114_stops {σ : Type} (T : FmtTarget) (S : Sink σ) (P : PrintDeps) (p : PrettyBer) (s : σ) :
    ∃ n, (p.fmtF T (logged S) P (s, [])).1.2 =
      List.replicate n true ++ if (p.fmtF T (logged S) P (s, [])).2 = .failed then [false] else [] := by
  rw [PrettyBer.fmtF, fmtObjF_exec]
  obtain ⟨n, h⟩ := exec_logged (S := S) (objScript T P p p.obj) (s, [])
  exact ⟨n, by rw [h]; rfl⟩

/-- C114: printing into an output that refuses nothing panics exactly if some printed object has an indentation that
is too wide, and otherwise answers `Ok`. -/
theorem C114_panics {σ : Type} (T : FmtTarget) (S : Sink σ) (hS : Reliable S) (P : PrintDeps) (p : PrettyBer)
    (hw : NoWrap T p) (hb : p.indent < 2 ^ T.target.bits) (s : σ) :
    ((p.fmtF T S P s).2 = .panicked ↔
      ∃ n, Descent (PrintStep p.isRecursive) p.obj n ∧ TooWide T (p.indent + n * p.inc)) ∧
    (p.fmtF T S P s).2 ≠ .failed := by
  have := none_obj P p hb p.obj hw
  rw [PrettyBer.fmtF, fmtObjF_exec, exec_reliable hS]
  by_cases h : none ∈ objScript T P p p.obj
  · rw [if_pos h]
    exact ⟨⟨fun _ => this.1 h, fun _ => rfl⟩, fun h' => by cases h'⟩
  · rw [if_neg h]
    exact ⟨⟨(fun h' => by cases h'), fun h' => absurd (this.2 h') h⟩, fun h' => by cases h'⟩

/-- C114, the property: `format!("{:?}", p)` returns the text, whatever the object and the settings. -/
def C114Statement (T : FmtTarget) : Prop :=
  ∀ (P : PrintDeps) (p : PrettyBer), p.indent < 2 ^ T.target.bits → p.inc < 2 ^ T.target.bits →
    p.fmtF T stringSink P [] = (p.fmt P, .done)

/-- C114: with a `core::fmt` that limits widths, a NULL at an indentation above the limit cannot be printed. -/
theorem C114_width_counterexample (T : FmtTarget) (P : PrintDeps) (w n inc : Nat) (hT : T.maxWidth = some w)
    (hn : w < n) (s : Bytes) :
    (PrettyBer.fmtF T stringSink P ((BerObject.fromObj .null).asPretty n inc) s) = (s, .panicked) := by
  have hr : T.refuses n = true := by simp [FmtTarget.refuses, hT, hn]
  simp only [PrettyBer.fmtF, BerObject.asPretty, PrettyBer.new, BerObject.fromObj, fmtObjF, PrettyBer.introF,
    PrettyBer.indentF, Fm.andThen]
  rw [if_pos (show 0 < n by omega), if_pos hr]
  rfl

/-- C114: without a limit, the indentation of the member of a SEQUENCE overflows: a panic with overflow checks, and
otherwise the member is printed to the left of the SEQUENCE. -/
theorem C114_overflow_counterexample (P : PrintDeps) :
    (PrettyBer.fmtF ⟨⟨64, true⟩, none⟩ stringSink P
      ((BerObject.fromSeq [.fromObj .null]).asPretty 1 (2 ^ 64 - 1)) []).2 = .panicked ∧
    PrettyBer.fmtF ⟨⟨64, false⟩, none⟩ stringSink P ((BerObject.fromSeq [.fromObj .null]).asPretty 1 (2 ^ 64 - 1)) [] =
      (lit " Sequence[\nNull ]", .done) := by
  constructor <;> rfl

theorem nested_null (P : PrintDeps) (inc : Nat) :
    PrettyBer.fmt P ((BerObject.fromSeq [.fromObj .null]).asPretty 1 inc) =
      lit " Sequence[\n" ++ (spaces (1 + inc) ++ lit "Null ]") := by
  have h : (0 < 1 + inc) = True := by simp; omega
  simp only [PrettyBer.fmt, BerObject.asPretty, PrettyBer.new, BerObject.fromSeq, BerObject.fromObj, fmtObj,
    fmtContent, fmtList, PrettyBer.intro, PrettyBer.outro, PrettyBer.nextIndent, h, if_true]
  generalize spaces (1 + inc) = x
  rw [if_neg (show ¬ [PrettyPrinterFlag.recursive].contains PrettyPrinterFlag.showHeader = true by decide),
    if_pos (show PrettyBer.isRecursive _ = true by rfl)]
  simp only [List.append_nil, List.append_assoc]
  rfl

/-- C114: the property does not hold on a target of 64 bits, with and without overflow checks, with any limit of
widths that can be exceeded and without one. -/
theorem C114_not_statement (checked : Bool) (mw : Option Nat) (hm : ∀ w, mw = some w → w < 2 ^ 64 - 1) :
    ¬ C114Statement ⟨⟨64, checked⟩, mw⟩ := by
  intro H
  cases mw with
  | some w =>
    have hw := hm w rfl
    have h := H Tests.P0 ((BerObject.fromObj .null).asPretty (w + 1) 0) (by
      show w + 1 < 2 ^ 64; omega) (by show 0 < 2 ^ 64; omega)
    rw [C114_width_counterexample _ Tests.P0 w (w + 1) 0 rfl (by omega) []] at h
    cases h
  | none =>
    have h := H Tests.P0 ((BerObject.fromSeq [.fromObj .null]).asPretty 1 (2 ^ 64 - 1))
      (by show 1 < 2 ^ 64; decide) (by show 2 ^ 64 - 1 < 2 ^ 64; decide)
    cases checked with
    | true =>
      have := (C114_overflow_counterexample Tests.P0).1
      rw [h] at this
      cases this
    | false =>
      rw [(C114_overflow_counterexample Tests.P0).2] at h
      have e := (Prod.mk.inj h).1
      have e' := nested_null Tests.P0 (2 ^ 64 - 1)
      rw [e'] at e
      have := congrArg List.length e
      simp only [List.length_append, spaces, List.length_replicate] at this
      have h1 : (lit " Sequence[\nNull ]").length = 17 := by decide
      omega

example := C114_not_statement true (some 65535) (fun w hw => by cases hw; decide)

/-- C114, the part that holds: no printed object is too far to the right. -/
theorem C114_partial (T : FmtTarget) (P : PrintDeps) (p : PrettyBer)
    (h : ∀ n, Descent (PrintStep p.isRecursive) p.obj n → ¬ TooWide T (p.indent + n * p.inc)) (s : Bytes) :
    p.fmtF T stringSink P s = (s ++ p.fmt P, .done) := by
  have hw : NoWrap T p := .inr fun n hn => by
    have := h n hn
    exact Nat.lt_of_not_le fun hle => this (.inl hle)
  have hb : p.indent < 2 ^ T.target.bits := by
    have := h 0 (.stop _)
    rw [Nat.zero_mul, Nat.add_zero] at this
    exact Nat.lt_of_not_le fun hle => this (.inl hle)
  have hR : Records stringSink (fun s => s) := ⟨fun _ _ _ => rfl, fun _ _ h => by cases h⟩
  obtain ⟨t, _, h2, h3⟩ := C114_prefix T stringSink _ hR P p hw s
  obtain ⟨h4, h5⟩ := C114_panics T stringSink (fun _ _ => rfl) P p hw hb s
  have hd : (p.fmtF T stringSink P s).2 = .done := by
    cases he : (p.fmtF T stringSink P s).2 with
    | done => rfl
    | failed => exact absurd he h5
    | panicked =>
      obtain ⟨n, hn, ht⟩ := h4.1 he
      exact absurd ht (h n hn)
  rw [h3 hd] at h2
  exact Prod.ext h2 hd

/-! ## Concrete cases -/

/-- An output for ten octets that refuses a piece that does not fit and keeps nothing of it. -/
def Tests.tenOctets : Sink Bytes where
  writeStr s t := if s.length + t.length ≤ 10 then (s ++ t, true) else (s, false)
  pieces t := t.map fun b => [b]
  pieces_flatten t := by induction t with
    | nil => rfl
    | cons b t ih => rw [List.map_cons, List.flatten_cons, ih]; rfl

/-- It records; a SEQUENCE of a NULL is cut after ten octets and the answer is an error. -/
example : Records Tests.tenOctets (fun s => s) ∧
    (PrettyBer.fmtF ⟨⟨64, true⟩, some 65535⟩ Tests.tenOctets Tests.P0 ((BerObject.fromSeq [.fromObj .null]).asPretty 0 2)
      []) = (lit "Sequence[\n", .failed) := by
  refine ⟨⟨fun s t h => ?_, fun s t h => ⟨[], List.nil_prefix, ?_⟩⟩, by decide +kernel⟩
  · simp only [Tests.tenOctets] at h ⊢
    split <;> simp_all
  · simp only [Tests.tenOctets] at h ⊢
    split <;> simp_all
/-- `C114_panics`: nested at width 65536 with the limit of `core::fmt`. -/
example : (PrettyBer.fmtF ⟨⟨64, true⟩, some 65535⟩ stringSink Tests.P0
      ((BerObject.fromSeq [.fromObj .null]).asPretty 0 65536) []).2 = .panicked ∧
    Descent (PrintStep true) (.fromSeq [.fromObj .null]) 1 ∧ TooWide ⟨⟨64, true⟩, some 65535⟩ (0 + 1 * 65536) := by
  refine ⟨by decide +kernel, .down _ (.fromObj .null) _ 0 (PrintStep.sequence _ _ _ rfl (by simp)) (.stop _),
    .inr ⟨65535, rfl, by omega⟩⟩
/-- The hypothesis of `C114_partial` for a SEQUENCE of a NULL. -/
example (P : PrintDeps) : PrettyBer.fmtF ⟨⟨64, true⟩, some 65535⟩ stringSink P
      ((BerObject.fromSeq [.fromObj .null]).asPretty 4 2) [] =
    (((BerObject.fromSeq [.fromObj .null]).asPretty 4 2).fmt P, .done) := by
  refine (C114_partial _ P _ (fun n hn hw => ?_) []).trans (by rw [List.nil_append])
  have h1 : n ≤ 1 := by
    cases hn with
    | stop => omega
    | down _ o' k m hs hd =>
      cases hs with
      | sequence _ _ _ _ hx =>
        rw [List.mem_singleton] at hx
        subst hx
        cases hd with
        | stop => omega
        | down _ _ _ _ hs' _ => cases hs'
  have h2 : 4 + n * 2 ≤ 6 := by omega
  rcases hw with hw | ⟨w, hw, hlt⟩
  · have : 2 ^ 64 ≤ 4 + n * 2 := hw
    omega
  · cases hw
    have : 65535 < 4 + n * 2 := hlt
    omega

end Verif
