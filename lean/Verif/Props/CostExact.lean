import Verif.Props.Cost
import Verif.Props.Access
/-!
# Number of header reads, from below: C95
-/
namespace Verif
open Outcome Spec

namespace Spec

/-- No object of the tree has an indefinite length. -/
def AllDefinite (o : BerObject) : Prop := ∀ o', Node o' o → o'.header.length ≠ .indefinite

/-- On success at least `f a` headers were read, and exactly `f a` if `P a`. -/
def Exact {ε α : Type} (x : Tick ε α) (f : α → Nat) (P : α → Prop) : Prop :=
  ∀ a, x.1 = .ok a → f a ≤ x.2 ∧ (P a → x.2 = f a)

end Spec

section
variable {ε ε' α β : Type}

theorem Tick.bind_ok {x : Tick ε α} {g : α → Tick ε β} {b : β} (h : (x.bind g).1 = .ok b) :
    ∃ a, x.1 = .ok a ∧ (g a).1 = .ok b ∧ (x.bind g).2 = x.2 + (g a).2 := by
  unfold Tick.bind at *
  match hq : x.1 with
  | .ok a => rw [hq] at h; exact ⟨a, rfl, h, rfl⟩
  | .err _ | .panic | .diverge => rw [hq] at h; cases h

theorem Tick.mapErr_ok {x : Tick ε α} {g : ε → ε'} {a : α} (h : (x.mapErr g).1 = .ok a) :
    x.1 = .ok a := by
  have h : x.1.mapErr g = .ok a := h
  match hq : x.1 with
  | .ok b => rw [hq] at h; cases h; rfl
  | .err _ | .panic | .diverge => rw [hq] at h; cases h

theorem Tick.map_ok {x : Tick ε α} {g : α → β} {b : β} (h : (x.map g).1 = .ok b) :
    ∃ a, x.1 = .ok a ∧ g a = b := by
  have h : x.1.map g = .ok b := h
  match hq : x.1 with
  | .ok a => rw [hq] at h; cases h; exact ⟨a, rfl, rfl⟩
  | .err _ | .panic | .diverge => rw [hq] at h; cases h
end

theorem getObjectContentT_definite {d : Nat} {h : Header} (hl : h.length ≠ .indefinite) (i : Bytes) :
    (getObjectContentT d h i).2 = 0 := by
  have h1 : (skipContentT d h i).2 = 0 := by
    cases d with
    | zero => rfl
    | succ d =>
      rw [skipContentT]
      cases hq : h.length with
      | definite l => rfl
      | indefinite => exact absurd hq hl
  unfold getObjectContentT Tick.bind
  match hq : (skipContentT d h i).1 with
  | .ok a => simp [h1, Tick.free]
  | .err _ | .panic | .diverge => exact h1

theorem exact_any (i : Bytes) :
    Exact (anyFromBerT i) (fun _ => 1) fun r => r.2.header.length ≠ .indefinite := by
  intro r hr
  unfold anyFromBerT at hr ⊢
  obtain ⟨a, h1, h2, h3⟩ := Tick.bind_ok hr
  obtain ⟨s, h4, h5, h6⟩ := Tick.bind_ok h2
  rw [h3, h6]
  have hc : (Tick.read (headerFromBer i)).2 = 1 := rfl
  rw [hc]
  refine ⟨by dsimp only; omega, fun hP => ?_⟩
  have h5 : (Outcome.ok (s.1, { header := a.2, data := s.2 }) : Outcome (NomErr BerError) _) = .ok r := h5
  cases h5
  rw [getObjectContentT_definite hP]
  rfl

section
variable {conv : Any → Tick BerError BerObject}

theorem exact_collect
    (hc : ∀ a, Exact (conv a) (fun o => (preorderC o.content 0).length) AllDefinite)
    (hh : ∀ a o, (conv a).1 = .ok o → o.header = a.header) :
    ∀ fuel data, Exact (collectItemsT conv fuel data) (fun os => (preorderL os 0).length)
      fun os => ∀ o ∈ os, AllDefinite o := by
  intro fuel
  induction fuel with
  | zero => intro data a ha; cases ha
  | succ fuel ih =>
    intro data
    cases data with
    | nil => intro a ha; cases ha; exact ⟨Nat.le_refl _, fun _ => rfl⟩
    | cons b data =>
      rw [collectItemsT]
      generalize b :: data = i
      intro l hl
      obtain ⟨r, h1, h2, h3⟩ := Tick.bind_ok hl
      obtain ⟨o, h4, h5, h6⟩ := Tick.bind_ok h2
      obtain ⟨os, h7, h8, h9⟩ := Tick.bind_ok h5
      have h8 : (Outcome.ok (o :: os) : Outcome BerError _) = .ok l := h8
      cases h8
      obtain ⟨a1, a2⟩ := exact_any i r (Tick.mapErr_ok h1)
      obtain ⟨b1, b2⟩ := hc r.2 o h4
      obtain ⟨c1, c2⟩ := ih r.1 os h7
      have e0 : (Tick.mapErr errOfNom (anyFromBerT i)).2 = (anyFromBerT i).2 := rfl
      have e1 : (Tick.free (.ok (o :: os)) : Tick BerError (List BerObject)).2 = 0 := rfl
      have e2 : (preorderL (o :: os) 0).length =
          1 + (preorderC o.content 0).length + (preorderL os 0).length := by
        cases o with
        | mk h c => simp only [preorderL, preorder, List.length_append, List.length_cons,
            BerObject.content]; omega
      dsimp only at a1 a2 b1 b2 c1 c2 ⊢
      rw [h3, h6, h9, e0, e1, e2]
      refine ⟨by omega, fun hP => ?_⟩
      rw [a2 (by rw [← hh r.2 o h4]; exact hP o (.head _) o .self), b2 (hP o (.head _)),
        c2 fun o' ho' => hP o' (.tail _ ho')]
      omega
end

mutual
theorem preorder_length (o : BerObject) (d d' : Nat) : (preorder o d).length = (preorder o d').length := by
  match o with
  | .mk h c => simp only [preorder, List.length_cons, preorderC_length c d d']
theorem preorderC_length (c : Content) (d d' : Nat) :
    (preorderC c d).length = (preorderC c d').length := by
  match c with
  | .sequence l => simp only [preorderC]; exact preorderL_length l _ _
  | .set l => simp only [preorderC]; exact preorderL_length l _ _
  | .boolean _ | .integer _ | .bitString _ _ | .octetString _ | .null | .enum _ | .oid _
  | .relativeOid _ | .str _ _ | .utcTime _ | .generalizedTime _ | .bmpString _
  | .universalString _ | .optionalNone | .optionalSome _ | .tagged _ _ _ | .endOfContent
  | .unknown _ => rfl
theorem preorderL_length (l : List BerObject) (d d' : Nat) :
    (preorderL l d).length = (preorderL l d').length := by
  match l with
  | [] => rfl
  | o :: os =>
    simp only [preorderL, List.length_append, preorder_length o d d', preorderL_length os d d']
end

theorem universalContent_leaf_preorder {D : Deps} {conv : Any → Outcome BerError BerObject} {a : Any}
    {x : Content} (h : universalContent D conv a = .ok x) (h1 : uKind a.header.tag ≠ .sequence)
    (h2 : uKind a.header.tag ≠ .set) : preorderC x 0 = [] := by
  have mp : ∀ {β : Type} (y : Outcome BerError β) (f : β → Content), (∀ b, preorderC (f b) 0 = []) →
      ∀ x, y.map f = .ok x → preorderC x 0 = [] := by
    intro β y f hf x hx
    cases y with
    | ok b => cases hx; exact hf b
    | err _ => cases hx
    | panic => cases hx
    | diverge => cases hx
  unfold universalContent at h
  split at h <;> (try contradiction) <;> (try (cases h; rfl))
  · split at h
    · cases h
    · split at h
      · cases h
      · cases h; rfl
  · split at h
    · cases h
    · split at h
      · cases h
      · split at h
        · cases h; rfl
        · cases h
  · exact mp _ _ (fun _ => rfl) _ h
  · exact mp _ _ (fun _ => rfl) _ h
  · exact mp _ _ (fun _ => rfl) _ h
  · unfold strFromAny at h
    split at h
    · cases h
    · split at h
      · split at h
        · cases h; rfl
        · cases h
      · cases h
  · exact mp _ _ (fun _ => rfl) _ h
  · split at h
    · cases h
    · cases h; rfl

theorem exact_objectFromAny (D : Deps) (d : Nat) : ∀ a,
    Exact (objectFromAnyT D d a) (fun o => (preorderC o.content 0).length) AllDefinite := by
  induction d with
  | zero => intro a o ho; cases ho
  | succ d ih =>
    intro a o ho
    have hh : ∀ b o, (objectFromAnyT D d b).1 = .ok o → o.header = b.header := by
      intro b o h
      rw [objectFromAnyT_fst] at h
      exact objectFromAny_header h
    rw [objectFromAnyT] at ho ⊢
    split at ho
    · rename_i hc
      rw [if_pos hc]
      cases ho
      exact ⟨Nat.le_refl _, fun _ => rfl⟩
    · rename_i hc
      rw [if_neg hc]
      obtain ⟨x, hx, rfl⟩ := Tick.map_ok ho
      have e0 : ∀ (y : Tick BerError Content), (y.map (BerObject.mk a.header)).2 = y.2 := fun _ => rfl
      rw [e0]
      unfold universalContentT at hx ⊢
      split at hx
      · rename_i hk
        dsimp only
        obtain ⟨u, h1, h2, h3⟩ := Tick.bind_ok hx
        obtain ⟨l, h4, rfl⟩ := Tick.map_ok h2
        obtain ⟨h5, h6⟩ := exact_collect ih hh _ _ l h4
        have e1 : ∀ (y : Tick BerError (List BerObject)), (y.map Content.sequence).2 = y.2 := fun _ => rfl
        have e2 : (preorderC (.sequence l) 0).length = (preorderL l 0).length := by
          rw [preorderC]; exact preorderL_length l _ _
        have e3 : (Tick.free a.header.assertConstructed).2 = 0 := rfl
        rw [h3, e1, e3]
        dsimp only [BerObject.content] at h5 h6 ⊢
        rw [e2]
        refine ⟨by omega, fun hP => ?_⟩
        rw [h6 fun o ho o' hn => hP o' (.seq _ l o ho hn)]
        omega
      · rename_i hk
        dsimp only
        obtain ⟨u, h1, h2, h3⟩ := Tick.bind_ok hx
        obtain ⟨l, h4, rfl⟩ := Tick.map_ok h2
        obtain ⟨h5, h6⟩ := exact_collect ih hh _ _ l h4
        have e1 : ∀ (y : Tick BerError (List BerObject)), (y.map Content.set).2 = y.2 := fun _ => rfl
        have e2 : (preorderC (.set l) 0).length = (preorderL l 0).length := by
          rw [preorderC]; exact preorderL_length l _ _
        have e3 : (Tick.free a.header.assertConstructed).2 = 0 := rfl
        rw [h3, e1, e3]
        dsimp only [BerObject.content] at h5 h6 ⊢
        rw [e2]
        refine ⟨by omega, fun hP => ?_⟩
        rw [h6 fun o ho o' hn => hP o' (.set _ l o ho hn)]
        omega
      · rename_i k1 k2
        have := universalContent_leaf_preorder hx k1 k2
        dsimp only [BerObject.content]
        rw [this]
        exact ⟨Nat.zero_le _, fun _ => rfl⟩

theorem allDefinite_header {h h' : Header} {x : Content} (H : AllDefinite (.mk h x))
    (e : h'.length = h.length) : AllDefinite (.mk h' x) := by
  intro o' hn
  cases hn with
  | self =>
    have := H _ .self
    simp only [BerObject.header] at this ⊢
    rw [e]; exact this
  | seq _ l o hm hn => exact H _ (.seq _ l o hm hn)
  | set _ l o hm hn => exact H _ (.set _ l o hm hn)

theorem preorder_mk (h : Header) (x : Content) :
    (preorder (.mk h x) 0).length = 1 + (preorderC x 0).length := by
  simp only [preorder, List.length_cons]; omega

theorem exact_readAs (D : Deps) (i : Bytes) (h : Header) (d : Nat) :
    Exact (berReadElementContentAsT D i h.tag h.length h.constructed d)
      (fun r => (preorderC r.2 0).length) fun r => AllDefinite (.mk h r.2) := by
  have go : Exact ((getObjectContentT d (Header.new .universal h.constructed h.tag h.length) i).bind
      fun r => ((objectFromAnyT D d
        { header := Header.new .universal h.constructed h.tag h.length, data := r.2 }).mapErr
          NomErr.error).bind fun o => .free (.ok (r.1, o.content)))
      (fun r => (preorderC r.2 0).length) fun r => AllDefinite (.mk h r.2) := by
    intro r hr
    obtain ⟨a, h1, h2, h3⟩ := Tick.bind_ok hr
    obtain ⟨o, h4, h5, h6⟩ := Tick.bind_ok h2
    have h5 : (Outcome.ok (a.1, o.content) : Outcome (NomErr BerError) _) = .ok r := h5
    cases h5
    have h4 := Tick.mapErr_ok h4
    obtain ⟨b1, b2⟩ := exact_objectFromAny D d _ o h4
    rw [objectFromAnyT_fst] at h4
    have hh := objectFromAny_header h4
    rw [h3, h6]
    have e0 : ∀ (y : Tick BerError BerObject), (y.mapErr NomErr.error).2 = y.2 := fun _ => rfl
    have e1 : (Tick.free (.ok (a.1, o.content)) : Tick (NomErr BerError) (Bytes × Content)).2 = 0 := rfl
    rw [e0, e1]
    dsimp only at b1 ⊢
    refine ⟨by omega, fun hP => ?_⟩
    have hl : (Header.new .universal h.constructed h.tag h.length).length ≠ .indefinite := hP _ .self
    rw [getObjectContentT_definite hl, b2 ?_]
    · dsimp only; omega
    · cases o with
      | mk h' x =>
        simp only [BerObject.header] at hh
        subst hh
        exact allDefinite_header hP rfl
  unfold berReadElementContentAsT
  cases hq : h.length with
  | indefinite => rw [hq] at go; exact go
  | definite l =>
    rw [hq] at go
    dsimp only
    split
    · intro r hr; cases hr
    · split
      · intro r hr; cases hr
      · exact go

theorem exact_derReadAs (D : Deps) (i : Bytes) (h : Header) (d : Nat) :
    Exact (derReadElementContentAsT D i h.tag h.length h.constructed d)
      (fun r => (preorderC r.2 0).length) fun r => AllDefinite (.mk h r.2) := by
  intro r hr
  unfold derReadElementContentAsT at hr ⊢
  obtain ⟨l, h1, h2, h3⟩ := Tick.bind_ok hr
  rw [h3]
  have e0 : ∀ y : Outcome (NomErr BerError) Nat, (Tick.free y).2 = 0 := fun _ => rfl
  rw [e0, Nat.zero_add]
  split at h2
  · cases h2
  · rename_i hl
    rw [if_neg hl]
    split at h2
    · rename_i ht
      rw [if_pos ht]
      have h2 : (if h.constructed then .err (.error (.derConstraintFailed .constructed))
        else derReadContentBitstring i l) = Outcome.ok r := h2
      have : preorderC r.2 0 = [] := by
        split at h2
        · cases h2
        · unfold derReadContentBitstring at h2
          split at h2
          · cases h2
          · split at h2
            · cases h2
            · split at h2
              · cases h2
              · obtain ⟨s, -, h7⟩ := bind_eq_ok.1 h2
                split at h7
                · split at h7
                  · cases h7
                  · split at h7
                    · cases h7; rfl
                    · cases h7
                · cases h7; rfl
      dsimp only
      rw [this]
      exact ⟨Nat.zero_le _, fun _ => rfl⟩
    · rename_i ht
      rw [if_neg ht]
      obtain ⟨u, h4, h5, h6⟩ := Tick.bind_ok h2
      rw [h6]
      have e1 : ∀ y : Outcome (NomErr BerError) Unit, (Tick.free y).2 = 0 := fun _ => rfl
      rw [e1, Nat.zero_add]
      exact exact_readAs D i h d r h5

theorem allDefinite_small : AllDefinite (.mk (Tests.h .universal true 16 2 [0x30])
    (.sequence [.mk (Tests.h .universal false 5 0 [0x05]) .null])) := by
  intro o' hn
  obtain ⟨d', h⟩ := (mem_preorder _ 0).2 hn
  simp only [preorder, preorderC, preorderL, List.mem_cons, List.append_nil, List.not_mem_nil, or_false, Prod.mk.injEq] at h
  rcases h with ⟨rfl, _⟩ | ⟨rfl, _⟩ <;> simp [BerObject.header, Tests.h]

/-- C95: a successful `parse_ber` reads at least as many headers as there are objects in the result, and
exactly as many if none of them has an indefinite length. -/
theorem C95_parse_ber (D : Deps) (d : Nat) (i rem : Bytes) (o : BerObject)
    (h : parseBerRecursive D d i = .ok (rem, o)) :
    (preorder o 0).length ≤ (parseBerRecursiveT D d i).2 ∧
    (AllDefinite o → (parseBerRecursiveT D d i).2 = (preorder o 0).length) := by
  rw [← (C78_same_results D d 0 i).1] at h
  unfold parseBerRecursiveT at h ⊢
  split at h
  · cases h
  · rename_i hd
    rw [if_neg hd]
    obtain ⟨r, h1, h2, h3⟩ := Tick.bind_ok h
    obtain ⟨o', h4, h5, h6⟩ := Tick.bind_ok h2
    have h5 : (Outcome.ok (r.1, o') : Outcome (NomErr BerError) _) = .ok (rem, o) := h5
    cases h5
    have h4 := Tick.mapErr_ok h4
    obtain ⟨a1, a2⟩ := exact_any i r h1
    obtain ⟨b1, b2⟩ := exact_objectFromAny D d _ o h4
    rw [objectFromAnyT_fst] at h4
    have hh := objectFromAny_header h4
    have e0 : ∀ (y : Tick BerError BerObject), (y.mapErr NomErr.error).2 = y.2 := fun _ => rfl
    have e1 : (Tick.free (.ok (r.1, o)) : Tick (NomErr BerError) (Bytes × BerObject)).2 = 0 := rfl
    rw [h3, h6, e0, e1]
    cases o with
    | mk h' x =>
      rw [preorder_mk]
      dsimp only [BerObject.content, BerObject.header] at a1 a2 b1 b2 hh
      refine ⟨by omega, fun hP => ?_⟩
      rw [a2 (by rw [← hh]; exact hP _ .self), b2 hP, Nat.add_zero]

example := (C95_parse_ber Tests.D0 50 [0x30, 0x02, 0x05, 0x00, 9] [9] _ rfl).2 allDefinite_small

/-- C95: likewise for `parse_ber_with_tag`. -/
theorem C95_parse_ber_with_tag (D : Deps) (t : Nat) (i rem : Bytes) (o : BerObject)
    (h : parseBerWithTag D t i = .ok (rem, o)) :
    (preorder o 0).length ≤ (parseBerWithTagT D t i).2 ∧
    (AllDefinite o → (parseBerWithTagT D t i).2 = (preorder o 0).length) := by
  rw [← (C78_same_results D 0 t i).2.1] at h
  unfold parseBerWithTagT at h ⊢
  obtain ⟨r, h1, h2, h3⟩ := Tick.bind_ok h
  obtain ⟨u, h4, h5, h6⟩ := Tick.bind_ok h2
  obtain ⟨s, h7, h8, h9⟩ := Tick.bind_ok h5
  have h8 : (Outcome.ok (s.1, .mk r.2 s.2) : Outcome (NomErr BerError) _) = .ok (rem, o) := h8
  cases h8
  obtain ⟨a1, a2⟩ := exact_readAs D _ _ _ _ h7
  have e0 : (Tick.read (headerFromBer i)).2 = 1 := rfl
  have e1 : ∀ y : Outcome (NomErr BerError) Unit, (Tick.free y).2 = 0 := fun _ => rfl
  have e2 : (Tick.free (.ok (s.1, .mk r.2 s.2)) : Tick (NomErr BerError) (Bytes × BerObject)).2 = 0 := rfl
  rw [h3, h6, h9, e0, e1, e2, preorder_mk]
  dsimp only at a1 a2
  exact ⟨by omega, fun hP => by rw [a2 hP]; omega⟩

example := (C95_parse_ber_with_tag Tests.D0 16 [0x30, 0x02, 0x05, 0x00, 9] [9] _ rfl).2 allDefinite_small

/-- C95: likewise for `parse_der_with_tag`. -/
theorem C95_parse_der_with_tag (D : Deps) (t : Nat) (i rem : Bytes) (o : BerObject)
    (h : parseDerWithTag D t i = .ok (rem, o)) :
    (preorder o 0).length ≤ (parseDerWithTagT D t i).2 ∧
    (AllDefinite o → (parseDerWithTagT D t i).2 = (preorder o 0).length) := by
  rw [← (C78_same_results D 0 t i).2.2.2] at h
  unfold parseDerWithTagT at h ⊢
  obtain ⟨r, h1, h2, h3⟩ := Tick.bind_ok h
  obtain ⟨u, h4, h5, h6⟩ := Tick.bind_ok h2
  obtain ⟨s, h7, h8, h9⟩ := Tick.bind_ok h5
  have h8 : (Outcome.ok (s.1, .mk r.2 s.2) : Outcome (NomErr BerError) _) = .ok (rem, o) := h8
  cases h8
  obtain ⟨a1, a2⟩ := exact_derReadAs D _ _ _ _ h7
  have e0 : (Tick.read (headerFromDer i)).2 = 1 := rfl
  have e1 : ∀ y : Outcome (NomErr BerError) Unit, (Tick.free y).2 = 0 := fun _ => rfl
  have e2 : (Tick.free (.ok (s.1, .mk r.2 s.2)) : Tick (NomErr BerError) (Bytes × BerObject)).2 = 0 := rfl
  rw [h3, h6, h9, e0, e1, e2, preorder_mk]
  dsimp only at a1 a2
  exact ⟨by omega, fun hP => by rw [a2 hP]; omega⟩

example := (C95_parse_der_with_tag Tests.D0 16 [0x30, 0x02, 0x05, 0x00, 9] [9] _ rfl).2 allDefinite_small

theorem derUnknownT_ok {i : Bytes} {h : Header} {d : Nat} {r : Bytes × BerObject}
    (hr : (derUnknownT i h d).1 = .ok r) :
    ∃ x, r.2 = .mk h x ∧ preorderC x 0 = [] ∧ (h.length ≠ .indefinite → (derUnknownT i h d).2 = 0) := by
  unfold derUnknownT at hr ⊢
  obtain ⟨s, h1, h2, h3⟩ := Tick.bind_ok hr
  have h2 : (Outcome.ok (s.1, .mk h (.unknown { header := h, data := s.2 })) :
    Outcome (NomErr BerError) (Bytes × BerObject)) = .ok r := h2
  cases h2
  refine ⟨_, rfl, rfl, fun hl => ?_⟩
  rw [h3, getObjectContentT_definite hl]
  rfl

/-- C95: likewise for `parse_der`. -/
theorem C95_parse_der (D : Deps) (hD : TimesKnown D) (d : Nat) (i rem : Bytes) (o : BerObject)
    (h : parseDerRecursive D d i = .ok (rem, o)) :
    (preorder o 0).length ≤ (parseDerRecursiveT D d i).2 ∧
    (AllDefinite o → (parseDerRecursiveT D d i).2 = (preorder o 0).length) := by
  have rd : ∀ i h, Exact (derReadElementContentRecursiveT D i h d)
      (fun r => (preorder r.2 0).length - 1) fun r => AllDefinite r.2 := by
    intro i h r hr
    unfold derReadElementContentRecursiveT at hr ⊢
    split at hr
    · rename_i hc
      rw [if_pos hc]
      obtain ⟨x, hx, h1, h2⟩ := derUnknownT_ok hr
      dsimp only
      rw [hx, preorder_mk, h1]
      exact ⟨Nat.zero_le _, fun hP => h2 (hP _ .self)⟩
    · rename_i hc
      rw [if_neg hc]
      have ex := exact_derReadAs D i h d
      have nu := noUnk_derReadElementContentAs hD i h.tag h.length h.constructed d
      rw [← derReadElementContentAsT_fst] at nu
      dsimp only at hr ⊢
      split at hr
      · rename_i s hs
        obtain ⟨a1, a2⟩ := ex s hs
        cases hr
        dsimp only at a1 a2 ⊢
        rw [preorder_mk]
        exact ⟨by omega, fun hP => by rw [a2 hP]; omega⟩
      · rename_i t ht
        exact absurd ht (nu t)
      · cases hr
      · cases hr
      · cases hr
  rw [← (C78_same_results D d 0 i).2.2.1] at h
  unfold parseDerRecursiveT at h ⊢
  obtain ⟨r, h1, h2, h3⟩ := Tick.bind_ok h
  have e0 : (Tick.read (headerFromDer i)).2 = 1 := rfl
  rw [h3, e0]
  have fin : ∀ x : Tick (NomErr BerError) (Bytes × BerObject), Exact x
      (fun r => (preorder r.2 0).length - 1) (fun r => AllDefinite r.2) → x.1 = .ok (rem, o) →
      (preorder o 0).length ≤ 1 + x.2 ∧ (AllDefinite o → 1 + x.2 = (preorder o 0).length) := by
    intro x hx h
    obtain ⟨a1, a2⟩ := hx _ h
    cases o with
    | mk h' c =>
      dsimp only at a1 a2
      rw [preorder_mk] at *
      exact ⟨by omega, fun hP => by rw [a2 hP]; omega⟩
  refine fin _ ?_ h2
  split
  · split
    · intro r hr; cases hr
    · exact rd _ _
  · exact rd _ _

/-- Non-trivial case: `SEQUENCE { INTEGER 1, SEQUENCE { NULL } }` has four objects, and four headers
are read. -/
example (D : Deps) :
    (parseBerRecursiveT D 50 [0x30, 7, 2, 1, 1, 0x30, 2, 5, 0]).2 = 4 ∧
    (parseDerRecursiveT D 50 [0x30, 7, 2, 1, 1, 0x30, 2, 5, 0]).2 = 4 :=
  ⟨rfl, rfl⟩

end Verif
