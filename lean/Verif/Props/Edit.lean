import Verif.Props.Access
import Verif.Props.Serialize
/-!
# Trees edited by a mutable visitor: C80
-/
namespace Verif
open Outcome Spec

/-! ## C80 -/

namespace Spec

/-- Not a SEQUENCE or SET. -/
def Flat (c : Content) : Prop := ∀ l, c ≠ .sequence l ∧ c ≠ .set l

/-- Variants whose value a type-specific callback cannot change. -/
def Protected : Content → Prop
  | .endOfContent | .null | .optionalNone | .octetString _ | .str .utf8 _ | .utcTime _
  | .generalizedTime _ => True
  | _ => False

/-- Position of a variant in `enum BerObjectContent`. -/
def variant : Content → Nat
  | .endOfContent => 0 | .boolean _ => 1 | .integer _ => 2 | .bitString _ _ => 3 | .octetString _ => 4
  | .null => 5 | .enum _ => 6 | .oid _ => 7 | .relativeOid _ => 8
  | .str .numeric _ => 9 | .str .visible _ => 10 | .str .printable _ => 11 | .str .ia5 _ => 12
  | .str .utf8 _ => 13 | .str .t61 _ => 14 | .str .videotex _ => 15
  | .bmpString _ => 16 | .universalString _ => 17 | .sequence _ => 18 | .set _ => 19
  | .utcTime _ => 20 | .generalizedTime _ => 21 | .str .objectDescriptor _ => 22
  | .str .graphic _ => 23 | .str .general _ => 24 | .optionalNone => 25 | .optionalSome _ => 26
  | .tagged _ _ _ => 27 | .unknown _ => 28

/-- `Edited o o'`: the same tree with other values: headers, variants, lists and protected values are the
same everywhere. -/
inductive Edited : BerObject → BerObject → Prop
  | flat (h : Header) (c c' : Content) : Flat c → variant c' = variant c → (Protected c → c' = c) →
      Edited (.mk h c) (.mk h c')
  | sequence (h : Header) (ps : List (BerObject × BerObject)) : (∀ p ∈ ps, Edited p.1 p.2) →
      Edited (.mk h (.sequence (ps.map Prod.fst))) (.mk h (.sequence (ps.map Prod.snd)))
  | set (h : Header) (ps : List (BerObject × BerObject)) : (∀ p ∈ ps, Edited p.1 p.2) →
      Edited (.mk h (.set (ps.map Prod.fst))) (.mk h (.set (ps.map Prod.snd)))

mutual
/-- The tree with `f` applied to the contents that are not lists; `f` is told the depth. -/
def mapObj (f : Nat → Content → Content) (d : Nat) : BerObject → BerObject
  | .mk h c => .mk h (mapContent f d c)
/-- The same for contents. -/
def mapContent (f : Nat → Content → Content) (d : Nat) : Content → Content
  | .sequence l => .sequence (mapList f (d + 1) l)
  | .set l => .set (mapList f (d + 1) l)
  | c => f d c
/-- The same for lists. -/
def mapList (f : Nat → Content → Content) (d : Nat) : List BerObject → List BerObject
  | [] => []
  | o :: os => mapObj f d o :: mapList f d os
end

end Spec

/-- Only the type-specific callbacks write, and those for SEQUENCE and SET keep the list. -/
structure MutVisitor.EditsValues {σ : Type} (v : MutVisitor σ) : Prop where
  ber : ∀ o d s, (v.visitBer o d s).2 = o
  sequence : ∀ n l d s, (v.callback n (.sequence l) d s).2 = .sequence l
  set : ∀ n l d s, (v.callback n (.set l) d s).2 = .set l

/-- A visitor that replaces values by `f`, keeping lists. -/
def editor (f : Nat → Content → Content) : MutVisitor Unit where
  visitBer o _ s := (s, o)
  callback _ c d s := (s, match c with
    | .sequence l => .sequence l
    | .set l => .set l
    | c => f d c)

theorem writeBack_variant (c c' : Content) : variant (writeBack c c') = variant c := by
  cases c with
  | str k s =>
    cases c' with
    | str k' s' => simp only [writeBack]; split <;> cases k <;> rfl
    | _ => rfl
  | _ => cases c' <;> rfl

theorem writeBack_protected (c c' : Content) (h : Protected c) : writeBack c c' = c := by
  cases c with
  | str k s =>
    cases k <;> simp [Protected] at h
    cases c' with
    | str k' s' => simp [writeBack]
    | _ => rfl
  | _ => first
    | (cases c' <;> rfl)
    | exact False.elim h

theorem visitMutList_pairs {σ : Type} {visit : BerObject → σ → Outcome Empty (σ × BerObject)}
    {l : List BerObject} {s s' : σ} {l' : List BerObject}
    (hv : ∀ o ∈ l, ∀ s s' o', visit o s = .ok (s', o') → Edited o o')
    (h : visitMutList visit l s = .ok (s', l')) :
    ∃ ps : List (BerObject × BerObject), ps.map Prod.fst = l ∧ ps.map Prod.snd = l' ∧
      ∀ p ∈ ps, Edited p.1 p.2 := by
  induction l generalizing s s' l' with
  | nil =>
    simp only [visitMutList, ok.injEq, Prod.mk.injEq] at h
    exact ⟨[], rfl, by rw [← h.2]; rfl, by simp⟩
  | cons o os ih =>
    rw [visitMutList] at h
    obtain ⟨⟨s1, o1⟩, h1, h2⟩ := bind_eq_ok.1 h
    obtain ⟨⟨s2, os2⟩, h3, h4⟩ := bind_eq_ok.1 h2
    simp only [ok.injEq, Prod.mk.injEq] at h4
    obtain ⟨ps, e1, e2, e3⟩ := ih (fun x hx => hv x (by simp [hx])) h3
    refine ⟨(o, o1) :: ps, by simp [e1], by simp [e2, ← h4.2], fun p hp => ?_⟩
    rcases List.mem_cons.1 hp with rfl | hp
    · exact hv o (by simp) _ _ _ h1
    · exact e3 p hp

/-- C80: type-specific callbacks change values only: after the traversal every object has its header and
variant, lists have their objects in order, and times, UTF8String and OCTET STRING are as before. -/
theorem C80_values_only {σ : Type} (v : MutVisitor σ) (hv : v.EditsValues) (fuel : Nat)
    (o o' : BerObject) (d : Nat) (s s' : σ) (h : visitMutObj v fuel o d s = .ok (s', o')) :
    Edited o o' := by
  induction fuel generalizing o o' d s s' with
  | zero => simp [visitMutObj] at h
  | succ fuel ih =>
    obtain ⟨hd, c⟩ := o
    rw [visitMutObj] at h
    simp only [hv.ber, BerObject.content, BerObject.header] at h
    by_cases hs : ∃ l, c = .sequence l
    · obtain ⟨l, rfl⟩ := hs
      simp only [hv.sequence, writeBack] at h
      obtain ⟨⟨t, l'⟩, h1, h2⟩ := bind_eq_ok.1 h
      simp only [ok.injEq, Prod.mk.injEq] at h2
      obtain ⟨ps, rfl, rfl, e⟩ := visitMutList_pairs (fun o _ s s' o' => ih o o' (d + 1) s s') h1
      rw [← h2.2]
      exact .sequence hd ps e
    by_cases hs' : ∃ l, c = .set l
    · obtain ⟨l, rfl⟩ := hs'
      simp only [hv.set, writeBack] at h
      obtain ⟨⟨t, l'⟩, h1, h2⟩ := bind_eq_ok.1 h
      simp only [ok.injEq, Prod.mk.injEq] at h2
      obtain ⟨ps, rfl, rfl, e⟩ := visitMutList_pairs (fun o _ s s' o' => ih o o' (d + 1) s s') h1
      rw [← h2.2]
      exact .set hd ps e
    have hflat : Flat c := fun l => ⟨fun e => hs ⟨l, e⟩, fun e => hs' ⟨l, e⟩⟩
    generalize hq : v.callback (cbName c) c d (v.visitBer (.mk hd c) d s).1 = q at h
    have hw := writeBack_leaf c q.2 hflat
    have h1 := writeBack_variant c q.2
    have h2 := fun hp => writeBack_protected c q.2 hp
    generalize writeBack c q.2 = c1 at h hw h1 h2
    have h3 : o' = .mk hd c1 := by
      cases c1 with
      | sequence l => exact absurd rfl (hw l).1
      | set l => exact absurd rfl (hw l).2
      | _ =>
        simp only [ok.injEq, Prod.mk.injEq] at h
        exact h.2.symm
    rw [h3]
    exact .flat hd c c1 hflat h1 h2

/-- An octet is put before each integer, in a SEQUENCE of INTEGER and SET of NULL. -/
example := C80_values_only (editor fun _ c => match c with | .integer s => .integer (1 :: s) | c => c)
  ⟨fun _ _ _ => rfl, fun _ _ _ _ => rfl, fun _ _ _ _ => rfl⟩ 3 Tests.nested _ 0 () () rfl

/-- One step of the traversal on a content that is not a list. -/
theorem visitMutObj_flat {σ : Type} (v : MutVisitor σ) (h : Header) (c : Content) (d fuel : Nat) (s : σ)
    (hv : (v.visitBer (.mk h c) d s).2 = .mk h c) (hc : Flat c) :
    visitMutObj v (fuel + 1) (.mk h c) d s =
      .ok ((v.callback (cbName c) c d (v.visitBer (.mk h c) d s).1).1,
        .mk h (writeBack c (v.callback (cbName c) c d (v.visitBer (.mk h c) d s).1).2)) := by
  rw [visitMutObj]
  simp only [hv, BerObject.content, BerObject.header]
  generalize v.callback (cbName c) c d (v.visitBer (.mk h c) d s).1 = q
  have hw := writeBack_leaf c q.2 hc
  generalize writeBack c q.2 = c1 at hw
  cases c1 with
  | sequence l => exact absurd rfl (hw l).1
  | set l => exact absurd rfl (hw l).2
  | _ => rfl

mutual
theorem editor_obj (f : Nat → Content → Content) (o : BerObject) (d fuel : Nat)
    (hf : depth o ≤ fuel) :
    visitMutObj (editor f) fuel o d () = .ok ((), mapObj (fun d c => writeBack c (f d c)) d o) := by
  match o, fuel with
  | .mk h c, 0 => cases c <;> simp [depth, contentDepth] at hf
  | .mk h (.sequence l), fuel + 1 =>
    simp only [depth, contentDepth] at hf
    have := editor_list f l (d + 1) fuel (by omega)
    rw [visitMutObj]
    simp only [editor] at this
    simp only [editor, BerObject.content, BerObject.header, writeBack, this]
    rfl
  | .mk h (.set l), fuel + 1 =>
    simp only [depth, contentDepth] at hf
    have := editor_list f l (d + 1) fuel (by omega)
    rw [visitMutObj]
    simp only [editor] at this
    simp only [editor, BerObject.content, BerObject.header, writeBack, this]
    rfl
  | .mk h .endOfContent, fuel + 1 | .mk h (.boolean _), fuel + 1 | .mk h (.integer _), fuel + 1
  | .mk h (.bitString _ _), fuel + 1 | .mk h (.octetString _), fuel + 1 | .mk h .null, fuel + 1
  | .mk h (.enum _), fuel + 1 | .mk h (.oid _), fuel + 1 | .mk h (.relativeOid _), fuel + 1
  | .mk h (.str _ _), fuel + 1 | .mk h (.bmpString _), fuel + 1 | .mk h (.universalString _), fuel + 1
  | .mk h (.utcTime _), fuel + 1 | .mk h (.generalizedTime _), fuel + 1 | .mk h .optionalNone, fuel + 1
  | .mk h (.optionalSome _), fuel + 1 | .mk h (.tagged _ _ _), fuel + 1 | .mk h (.unknown _), fuel + 1 =>
    rw [visitMutObj_flat _ _ _ _ _ _ rfl (fun l => ⟨by simp, by simp⟩)]
    rfl
theorem editor_list (f : Nat → Content → Content) (l : List BerObject) (d fuel : Nat)
    (hf : listDepth l ≤ fuel) :
    visitMutList (fun o s => visitMutObj (editor f) fuel o d s) l () =
      .ok ((), mapList (fun d c => writeBack c (f d c)) d l) := by
  match l with
  | [] => rfl
  | o :: os =>
    simp only [listDepth] at hf
    rw [visitMutList, editor_obj f o d fuel (by omega)]
    simp only [ok_bind]
    rw [editor_list f os d fuel (by omega)]
    rfl
end

/-- C80: a visitor that replaces values yields the tree with the values replaced, wherever the callback may
write; in particular the traversal ends. -/
theorem C80_exact (f : Nat → Content → Content) (o : BerObject) (d fuel : Nat) (hf : depth o ≤ fuel) :
    visitMutObj (editor f) fuel o d () = .ok ((), mapObj (fun d c => writeBack c (f d c)) d o) :=
  editor_obj f o d fuel hf

example := C80_exact (fun _ c => match c with | .integer s => .integer (1 :: s) | c => c) Tests.nested 0 3 (by decide)

theorem writeBack_same {c c' : Content} (h1 : variant c' = variant c) (h2 : Protected c → c' = c) :
    writeBack c c' = c' := by
  by_cases hp : Protected c
  · rw [h2 hp, writeBack_self]
  · cases c with
    | str k s => cases k <;> cases c' <;> first
        | exact absurd trivial hp
        | (rename_i k' s'; cases k' <;> first | rfl | simp [variant] at h1)
        | simp [variant] at h1
    | _ => cases c' <;> first
        | exact absurd trivial hp
        | rfl
        | (rename_i k' s'; cases k' <;> simp [variant] at h1)
        | simp [variant] at h1

/-- C80: a callback that keeps variants and the protected values yields exactly the tree with the replacement made,
whatever the values. -/
theorem C80_replaced (f : Nat → Content → Content) (o : BerObject) (d fuel : Nat) (hf : depth o ≤ fuel)
    (h1 : ∀ d c, variant (f d c) = variant c) (h2 : ∀ d c, Protected c → f d c = c) :
    visitMutObj (editor f) fuel o d () = .ok ((), mapObj f d o) := by
  have : (fun d c => writeBack c (f d c)) = f := by
    funext d c
    exact writeBack_same (h1 d c) (h2 d c)
  rw [C80_exact f o d fuel hf, this]

/-- C80: the same by the entry points `run_at` and `run`. -/
theorem C80_run (f : Nat → Content → Content) (o : BerObject) (d fuel : Nat) (hf : depth o ≤ fuel)
    (h1 : ∀ d c, variant (f d c) = variant c) (h2 : ∀ d c, Protected c → f d c = c) :
    (editor f).runAt fuel o d () = .ok ((), mapObj f d o) ∧
    (editor f).run fuel o () = .ok ((), mapObj f 0 o) :=
  ⟨C80_replaced f o d fuel hf h1 h2, C80_replaced f o 0 fuel hf h1 h2⟩

/-- Strings of one alphabet are emptied, and the rest is kept. -/
example (o : BerObject) (d : Nat) : visitMutObj (editor fun _ c => match c with | .str .ia5 _ => .str .ia5 [] | c => c)
    (depth o) o d () = .ok ((), mapObj (fun _ c => match c with | .str .ia5 _ => .str .ia5 [] | c => c) d o) := by
  refine C80_replaced _ o d _ (Nat.le_refl _) (fun _ c => ?_) (fun _ c hp => ?_) <;> cases c <;> try rfl
  all_goals rename_i k s; cases k <;> first | rfl | exact hp.elim

theorem visitMutList_fuel {σ : Type} {f g : BerObject → σ → Outcome Empty (σ × BerObject)}
    (hfg : ∀ o s r, f o s = .ok r → g o s = .ok r) (l : List BerObject) (s : σ) (r : σ × List BerObject)
    (h : visitMutList f l s = .ok r) : visitMutList g l s = .ok r := by
  induction l generalizing s r with
  | nil => exact h
  | cons o os ih =>
    rw [visitMutList] at h ⊢
    obtain ⟨r1, h1, h2⟩ := bind_eq_ok.1 h
    obtain ⟨r2, h3, h4⟩ := bind_eq_ok.1 h2
    rw [hfg _ _ _ h1, ok_bind, ih _ _ h3]
    exact h4

/-- C80: the answer does not depend on the fuel of the model. -/
theorem C80_fuel {σ : Type} (v : MutVisitor σ) (fuel k : Nat) (o : BerObject) (d : Nat) (s : σ)
    (r : σ × BerObject) (h : visitMutObj v fuel o d s = .ok r) :
    visitMutObj v (fuel + k) o d s = .ok r := by
  induction fuel generalizing o d s r with
  | zero => simp [visitMutObj] at h
  | succ fuel ih =>
    rw [show fuel + 1 + k = (fuel + k) + 1 by omega]
    rw [visitMutObj] at h ⊢
    generalize v.visitBer o d s = r1 at h ⊢
    generalize v.callback (cbName r1.2.content) r1.2.content d r1.1 = q at h ⊢
    generalize writeBack r1.2.content q.2 = c at h ⊢
    cases c with
    | sequence l =>
      dsimp only at h ⊢
      obtain ⟨t, h1, h2⟩ := bind_eq_ok.1 h
      rw [visitMutList_fuel (fun o s r => ih o (d + 1) s r) l q.1 t h1]
      exact h2
    | set l =>
      dsimp only at h ⊢
      obtain ⟨t, h1, h2⟩ := bind_eq_ok.1 h
      rw [visitMutList_fuel (fun o s r => ih o (d + 1) s r) l q.1 t h1]
      exact h2
    | _ => exact h

example := C80_fuel (editor fun _ c => match c with | .integer s => .integer (1 :: s) | c => c) 3 7 Tests.nested 0 () _ rfl

theorem mapList_mem {f : Nat → Content → Content} {d : Nat} {l : List BerObject} {x : BerObject}
    (h : x ∈ mapList f d l) : ∃ o ∈ l, x = mapObj f d o := by
  induction l with
  | nil => simp [mapList] at h
  | cons o os ih =>
    rcases List.mem_cons.1 h with rfl | h
    · exact ⟨o, by simp, rfl⟩
    · obtain ⟨y, hy, e⟩ := ih h
      exact ⟨y, by simp [hy], e⟩

/-- Replacing values by well-formed values of the same type keeps a tree well-formed. -/
theorem wf_mapObj {D : Deps} {f : Nat → Content → Content} {n : Nat} {o : BerObject} (hW : Wf D n o)
    (hf : ∀ d h c, WfLeaf D h c → WfLeaf D h (f d c)) (d : Nat) : Wf D n (mapObj f d o) := by
  induction hW generalizing d with
  | leaf n h x ht hl =>
    have : mapContent f d x = f d x := by cases x <;> first | rfl | exact False.elim hl
    rw [mapObj, this]
    exact .leaf n h _ ht (hf d h x hl)
  | sequence n h l h1 h2 h3 _ ih =>
    refine .sequence n h _ h1 h2 h3 fun o ho => ?_
    obtain ⟨y, hy, rfl⟩ := mapList_mem ho
    exact ih y hy (d + 1)
  | set n h l h1 h2 h3 _ ih =>
    refine .set n h _ h1 h2 h3 fun o ho => ?_
    obtain ⟨y, hy, rfl⟩ := mapList_mem ho
    exact ih y hy (d + 1)

theorem wf_depth {D : Deps} {n : Nat} {o : BerObject} (h : Wf D n o) : depth o ≤ n := by
  have hl : ∀ (l : List BerObject) (m : Nat), (∀ o ∈ l, depth o ≤ m) → listDepth l ≤ m := by
    intro l m
    induction l with
    | nil => intro _; exact Nat.zero_le _
    | cons o os ih =>
      intro H
      have h1 := H o (by simp)
      have h2 := ih fun x hx => H x (by simp [hx])
      simp only [listDepth]
      omega
  induction h with
  | leaf n h x ht hL =>
    simp only [depth]
    cases x <;> first | exact False.elim hL | simp [contentDepth]
  | sequence n h l _ _ _ _ ih => exact Nat.succ_le_succ (hl l n ih)
  | set n h l _ _ _ _ ih => exact Nat.succ_le_succ (hl l n ih)

/-- C80: edit, serialize, parse: if the new values are well-formed for their types, the edited tree is
serialized and reading the output gives the edited tree, up to stored lengths and raw tags.  The stored
lengths of the edited tree need not be right. -/
theorem C80_edit_serialize_parse (D : Deps) (f : Nat → Content → Content) (o : BerObject)
    (hW : Wf D 50 o) (hf : ∀ d h c, WfLeaf D h c → WfLeaf D h (writeBack c (f d c))) :
    ∃ o1, visitMutObj (editor f) 50 o 0 () = .ok ((), o1) ∧ Edited o o1 ∧
      ∃ e, toVec D o1 = .ok e ∧ (e.length < 2 ^ 64 → ∀ rest, ∃ o',
        parseBer D (e ++ rest) = .ok (rest, o') ∧ erase o' = erase o1) := by
  have h1 := C80_exact f o 0 50 (wf_depth hW)
  refine ⟨_, h1, ?_, C46_serialize_parse D _ (wf_mapObj hW hf 0)⟩
  exact C80_values_only (editor f) ⟨fun _ _ _ => rfl, fun _ _ _ _ => rfl, fun _ _ _ _ => rfl⟩ _ _ _ _ _ _ h1

example := C80_edit_serialize_parse Tests.D0 (fun _ c => match c with | .integer s => .integer (1 :: s) | c => c)
  (.fromSeq [.fromIntSlice [0x05], .fromObj .null])
  (.sequence 49 _ _ rfl rfl rfl (by
    simp only [List.forall_mem_cons, List.not_mem_nil, false_imp_iff, implies_true, and_true]
    exact ⟨.leaf 48 _ _ (by decide) ⟨rfl, rfl⟩, .leaf 48 _ _ (by decide) ⟨rfl, rfl⟩⟩))
  (fun d h c hc => by
    cases c with
    | integer s => exact hc
    | _ => rw [writeBack_self]; exact hc)

/-- The tree with `g` applied to the contents octets of every INTEGER. -/
def Spec.mapIntegers (g : Bytes → Bytes) : BerObject → BerObject :=
  mapObj (fun _ c => match c with | .integer s => .integer (g s) | c => c) 0

/-- C80: parse, change every INTEGER, serialize, parse again: the result is the tree that was read with the
integers changed, whatever the change, up to stored lengths and raw tags. -/
theorem C80_parse_edit_integers (D : Deps) (g : Bytes → Bytes) (i rem : Bytes) (o : BerObject)
    (h : parseBer D i = .ok (rem, o)) (ht : ∀ o', Node o' o → o'.header.tag ≤ 30)
    (hu : ∀ o', Node o' o → ∀ t, o'.content = .utcTime t →
      D.utcTime o'.header.constructed (D.display t) = .ok t)
    (hg : ∀ o', Node o' o → ∀ t, o'.content = .generalizedTime t →
      D.generalizedTime o'.header.constructed (D.display t) = .ok t) :
    ∃ o1 e, visitMutObj (editor fun _ c => match c with | .integer s => .integer (g s) | c => c) 50 o 0 () =
        .ok ((), o1) ∧ toVec D o1 = .ok e ∧
      (e.length < 2 ^ 64 → ∀ rest, ∃ o', parseBer D (e ++ rest) = .ok (rest, o') ∧
        erase o' = erase (mapIntegers g o)) := by
  have hW : Wf D 50 o := by
    obtain ⟨_, c, _, _, h3⟩ := parseBerRecursive_iff.1 h
    rw [← BerObject.eta o]
    exact denotes_wf h3 (by simpa using ht) (by simpa using hu) (by simpa using hg)
  have hwb : (fun (_ : Nat) (c : Content) => writeBack c (match c with | .integer s => .integer (g s) | c => c)) =
      fun _ c => match c with | .integer s => .integer (g s) | c => c := by
    funext _ c
    cases c <;> first | rfl | exact writeBack_self _
  obtain ⟨o1, h1, -, e, h2, h3⟩ := C80_edit_serialize_parse D
    (fun _ c => match c with | .integer s => .integer (g s) | c => c) o hW (by
      intro d h c hL
      have := congrFun (congrFun hwb d) c
      simp only at this
      rw [this]
      cases c <;> exact hL)
  refine ⟨o1, e, h1, h2, fun hl rest => ?_⟩
  obtain ⟨o', h4, h5⟩ := h3 hl rest
  refine ⟨o', h4, ?_⟩
  rw [C80_exact _ o 0 50 (wf_depth hW), hwb] at h1
  simp only [ok.injEq, Prod.mk.injEq, true_and] at h1
  rw [h5, ← h1]
  rfl

/-- A SEQUENCE of INTEGER, NULL and a SET of INTEGER, whose integers are replaced by a longer one. -/
example : (parseBer Tests.D0 [0x30, 0x0a, 0x02, 0x01, 0x05, 0x05, 0x00, 0x31, 0x03, 0x02, 0x01, 0x07]).bind
    (fun r => (toVec Tests.D0 (mapIntegers (fun s => 1 :: s) r.2)).mapErr Empty.elim) =
    .ok [0x30, 0x0c, 0x02, 0x02, 0x01, 0x05, 0x05, 0x00, 0x31, 0x04, 0x02, 0x02, 0x01, 0x07] := by
  decide +kernel

/-- A callback for SEQUENCE that empties the list is not restricted to values. -/
example : visitMutObj (σ := Unit) ⟨fun o _ s => (s, o), fun _ _ _ s => (s, .sequence [])⟩ 3
    (.mk (Header.new .universal true 16 (.definite 2))
      (.sequence [.mk (Header.new .universal false 5 (.definite 0)) .null])) 0 () =
    .ok ((), .mk (Header.new .universal true 16 (.definite 2)) (.sequence [])) := rfl

end Verif
