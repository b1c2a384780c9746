import Verif.Props.Forms
import Verif.Props.Der
import Verif.Props.ValidDer
/-!
# Property C104: what parsing forgets
-/
namespace Verif
open Outcome Spec

/-! ## Specification -/

namespace Spec

/-- The same class, form and tag number. -/
def SameIdent (h h' : Header) : Prop := h.cls = h'.cls ∧ h.constructed = h'.constructed ∧ h.tag = h'.tag

/-- Contents octets that mean the same under one class, form and tag number: BOOLEANs both false or both true, the same
enumerated value, the same time; contents of end-of-contents and NULL are not looked at; other contents are the same
octets. -/
def SameContents (D : Deps) (h : Header) (c c' : Bytes) : Prop :=
  (h.cls ≠ .universal → c = c') ∧ (h.cls = .universal →
    (h.tag = 1 → (c = [0] ↔ c' = [0])) ∧
    (h.tag = 10 → base256 c = base256 c') ∧
    (h.tag = 23 → D.utcTime h.constructed c = D.utcTime h.constructed c') ∧
    (h.tag = 24 → D.generalizedTime h.constructed c = D.generalizedTime h.constructed c') ∧
    (h.tag ∉ [0, 1, 5, 10, 23, 24] → c = c'))

/-- Octet strings that are the same element apart from the options that BER leaves to the sender (identifier octets for
one tag number, length octets and length forms, octets for true) and apart from contents that have the same meaning. -/
inductive Alike (D : Deps) : Bytes → Bytes → Prop
  | leaf (e e' : Bytes) (h h' : Header) (c c' : Bytes) : Framed 50 e h c → Framed 50 e' h' c' → SameIdent h h' →
      ¬ (h.cls = .universal ∧ (h.tag = 16 ∨ h.tag = 17)) → SameContents D h c c' → Alike D e e'
  | list (e e' : Bytes) (h h' : Header) (es : List (Bytes × Bytes)) : Framed 50 e h (es.map (·.1)).flatten →
      Framed 50 e' h' (es.map (·.2)).flatten → SameIdent h h' → h.cls = .universal → h.tag = 16 ∨ h.tag = 17 →
      (∀ p ∈ es, Alike D p.1 p.2) → Alike D e e'

end Spec

/-! ## Lemmas -/

theorem eraseH_iff {h h' : Header} : eraseH h = eraseH h' ↔ SameIdent h h' := by
  cases h
  cases h'
  simp [eraseH, SameIdent]

theorem leaf_same {D : Deps} {h h' : Header} {c c' : Bytes} {x x' : Content} (H : Leaf D h c x) (H' : Leaf D h' c' x')
    (hi : SameIdent h h') : eraseC x = eraseC x' ↔ SameContents D h c c' := by
  obtain ⟨cls, k, t, l, r⟩ := h
  obtain ⟨cls', k', t', l', r'⟩ := h'
  obtain ⟨h1, h2, h3⟩ := hi
  dsimp only at h1 h2 h3
  subst h1 h2 h3
  unfold SameContents
  cases x <;> try exact H.elim
  case unknown a =>
    obtain ⟨rfl, hx⟩ := H
    cases x' <;> try exact H'.elim
    case unknown a' =>
      obtain ⟨rfl, hx'⟩ := H'
      dsimp only at hx
      simp only [eraseC, Content.unknown.injEq, Any.mk.injEq, eraseH, true_and]
      constructor
      · rintro rfl; simp
      · rintro ⟨g1, g2⟩
        by_cases hc : cls = .universal
        · refine (g2 hc).2.2.2.2 ?_
          rcases hx with hx | hx | hx
          · exact absurd hc hx
          · simp at hx ⊢; omega
          · simp; omega
        · exact g1 hc
    case str s b =>
      exfalso
      obtain ⟨g1, g2, -⟩ := H'
      dsimp only at hx g1 g2
      subst g1
      cases s <;> simp [strTag] at g2 <;> simp [g2] at hx
    all_goals
      exfalso
      have g1 := H'.1
      simp only [Leaf] at H'
      dsimp only at hx g1
      subst g1
      simp at hx
      omega
  all_goals
    have hu : cls = .universal := H.1
    subst hu
    simp only [Leaf, true_and] at H
    cases x' <;> try exact H'.elim
    case unknown a =>
      exfalso
      have hx := H'.2
      simp at hx
      first
        | omega
        | (rename_i k _; cases k <;> simp [strTag] at H <;> omega)
  case boolean.boolean v v' =>
    obtain ⟨rfl, -, b, rfl, rfl⟩ := H
    obtain ⟨-, -, -, b', rfl, rfl⟩ := H'
    by_cases hb : b = 0 <;> by_cases hb' : b' = 0 <;> simp [eraseC, hb, hb']
  case enum.enum n n' =>
    obtain ⟨rfl, -, rfl, -⟩ := H
    obtain ⟨-, -, -, rfl, -⟩ := H'
    simp [eraseC]
  case utcTime.utcTime t t' =>
    obtain ⟨rfl, H⟩ := H
    obtain ⟨-, -, H'⟩ := H'
    dsimp only at H'
    simp [eraseC, H, H']
  case generalizedTime.generalizedTime t t' =>
    obtain ⟨rfl, H⟩ := H
    obtain ⟨-, -, H'⟩ := H'
    dsimp only at H'
    simp [eraseC, H, H']
  case bitString.bitString u b u' b' =>
    obtain ⟨rfl, -, rfl⟩ := H
    obtain ⟨-, -, -, rfl⟩ := H'
    simp [eraseC]
  case str.str k b k' b' =>
    obtain ⟨rfl, -, rfl, -⟩ := H
    obtain ⟨-, h2, -, rfl, -⟩ := H'
    have hk : k = k' := by
      dsimp only at h2
      cases k <;> cases k' <;> first | rfl | (simp [strTag] at h2)
    subst hk
    cases k <;> simp [eraseC, strTag]
  case endOfContent.endOfContent => subst H; simp
  case null.null => subst H; simp
  case integer.integer =>
    obtain ⟨rfl, rfl⟩ := H
    obtain ⟨-, -, rfl⟩ := H'
    simp [eraseC]
  case octetString.octetString =>
    obtain ⟨rfl, rfl⟩ := H
    obtain ⟨-, -, rfl⟩ := H'
    simp [eraseC]
  case oid.oid =>
    obtain ⟨rfl, rfl⟩ := H
    obtain ⟨-, -, rfl⟩ := H'
    simp [eraseC]
  case relativeOid.relativeOid =>
    obtain ⟨rfl, rfl⟩ := H
    obtain ⟨-, -, rfl⟩ := H'
    simp [eraseC]
  case universalString.universalString =>
    obtain ⟨rfl, -, rfl⟩ := H
    obtain ⟨-, -, -, rfl⟩ := H'
    simp [eraseC]
  case bmpString.bmpString =>
    obtain ⟨rfl, -, rfl, -⟩ := H
    obtain ⟨-, -, -, rfl, -⟩ := H'
    simp [eraseC]
  all_goals
    exfalso
    simp only [Leaf, true_and] at H'
    first
      | omega
      | (rename_i k _; cases k <;> simp only [strTag] at H H' <;> omega)
      | (rename_i k _ _; cases k <;> simp only [strTag] at H H' <;> omega)
      | (rename_i k _ _ _; cases k <;> simp only [strTag] at H H' <;> omega)

theorem alike_framed {D : Deps} {e e' : Bytes} (H : Alike D e e') :
    (∃ h c, Framed 50 e h c) ∧ ∃ h c, Framed 50 e' h c := by
  cases H with
  | leaf _ _ h h' c c' h1 h2 => exact ⟨⟨_, _, h1⟩, _, _, h2⟩
  | list _ _ h h' es h1 h2 => exact ⟨⟨_, _, h1⟩, _, _, h2⟩

/-- Two elements of which neither is a SEQUENCE or SET. -/
theorem alike_leaf {D : Deps} {e e' c c' : Bytes} {h h' : Header} (hF : Framed 50 e h c) (hF' : Framed 50 e' h' c')
    (hn : ¬ (h.cls = .universal ∧ (h.tag = 16 ∨ h.tag = 17))) :
    Alike D e e' ↔ SameIdent h h' ∧ SameContents D h c c' := by
  constructor
  · intro H
    cases H with
    | leaf _ _ _ _ _ _ h1 h2 h3 _ h5 =>
      obtain ⟨-, -, rfl, rfl⟩ := framed_unique (r := []) (r' := []) hF h1 rfl
      obtain ⟨-, -, rfl, rfl⟩ := framed_unique (r := []) (r' := []) hF' h2 rfl
      exact ⟨h3, h5⟩
    | list _ _ _ _ es h1 _ _ h4 h5 =>
      obtain ⟨-, -, rfl, -⟩ := framed_unique (r := []) (r' := []) hF h1 rfl
      exact absurd ⟨h4, h5⟩ hn
  · rintro ⟨h1, h2⟩
    exact .leaf e e' h h' c c' hF hF' h1 hn h2

theorem alike_ident {D : Deps} {e e' c c' : Bytes} {h h' : Header} (hF : Framed 50 e h c) (hF' : Framed 50 e' h' c')
    (H : Alike D e e') : SameIdent h h' := by
  cases H with
  | leaf _ _ _ _ _ _ h1 h2 h3 _ h5 =>
    obtain ⟨-, -, rfl, rfl⟩ := framed_unique (r := []) (r' := []) hF h1 rfl
    obtain ⟨-, -, rfl, rfl⟩ := framed_unique (r := []) (r' := []) hF' h2 rfl
    exact h3
  | list _ _ _ _ es h1 h2 h3 _ _ =>
    obtain ⟨-, -, rfl, -⟩ := framed_unique (r := []) (r' := []) hF h1 rfl
    obtain ⟨-, -, rfl, -⟩ := framed_unique (r := []) (r' := []) hF' h2 rfl
    exact h3

/-- Two lists of elements, of SEQUENCE or SET. -/
theorem alike_list {D : Deps} {e e' : Bytes} {h h' : Header} {items items' : List Item}
    (hF : Framed 50 e h (items.flatMap Item.bytes)) (hF' : Framed 50 e' h' (items'.flatMap Item.bytes))
    (h1 : h.cls = .universal) (h2 : h.tag = 16 ∨ h.tag = 17) (hi : SameIdent h h')
    (g1 : ∀ it ∈ items, Framed 50 it.bytes it.header it.body)
    (g2 : ∀ it ∈ items', Framed 50 it.bytes it.header it.body)
    (ih : ∀ it ∈ items, ∀ it' ∈ items',
      (erase (.mk it.header it.value) = erase (.mk it'.header it'.value) ↔ Alike D it.bytes it'.bytes)) :
    eraseL (items.map fun it => .mk it.header it.value) = eraseL (items'.map fun it => .mk it.header it.value) ↔
      Alike D e e' := by
  have key : ∀ (items items' : List Item), (∀ it ∈ items, ∀ it' ∈ items',
      (erase (.mk it.header it.value) = erase (.mk it'.header it'.value) ↔ Alike D it.bytes it'.bytes)) →
      (eraseL (items.map fun it => .mk it.header it.value) = eraseL (items'.map fun it => .mk it.header it.value) ↔
        ∃ es : List (Bytes × Bytes), es.map (·.1) = items.map Item.bytes ∧ es.map (·.2) = items'.map Item.bytes ∧
          ∀ p ∈ es, Alike D p.1 p.2) := by
    intro items
    induction items with
    | nil =>
      intro items' _
      cases items' with
      | nil => exact ⟨fun _ => ⟨[], rfl, rfl, by simp⟩, fun _ => rfl⟩
      | cons it' items' => simp [eraseL]
    | cons it items iht =>
      intro items' hA
      cases items' with
      | nil =>
        simp only [List.map_cons, List.map_nil, eraseL]
        refine ⟨fun h => by simp at h, ?_⟩
        rintro ⟨es, h1, h2, -⟩
        simp at h2
        subst h2
        simp at h1
      | cons it' items' =>
        simp only [List.map_cons, eraseL, List.cons.injEq]
        rw [iht items' fun a ha b hb => hA a (List.mem_cons_of_mem _ ha) b (List.mem_cons_of_mem _ hb),
          hA it List.mem_cons_self it' List.mem_cons_self]
        constructor
        · rintro ⟨h1, es, h2, h3, h4⟩
          exact ⟨(it.bytes, it'.bytes) :: es, by simp [h2], by simp [h3], by simpa using ⟨h1, by simpa using h4⟩⟩
        · rintro ⟨es, h2, h3, h4⟩
          cases es with
          | nil => simp at h2
          | cons p es =>
            simp only [List.map_cons, List.cons.injEq] at h2 h3
            have := h4 p List.mem_cons_self
            rw [h2.1, h3.1] at this
            exact ⟨this, es, h2.2, h3.2, fun q hq => h4 q (List.mem_cons_of_mem _ hq)⟩
  rw [key items items' ih]
  constructor
  · rintro ⟨es, k1, k2, k3⟩
    refine .list e e' h h' es ?_ ?_ hi h1 h2 k3
    · rw [k1, ← List.flatMap_def]; exact hF
    · rw [k2, ← List.flatMap_def]; exact hF'
  · intro H
    cases H with
    | leaf _ _ _ _ _ _ k1 k2 k3 k4 k5 =>
      obtain ⟨-, -, rfl, -⟩ := framed_unique (r := []) (r' := []) hF k1 rfl
      exact absurd ⟨h1, h2⟩ k4
    | list _ _ _ _ es k1 k2 k3 _ _ k6 =>
      obtain ⟨-, -, -, e1⟩ := framed_unique (r := []) (r' := []) hF k1 rfl
      obtain ⟨-, -, -, e2⟩ := framed_unique (r := []) (r' := []) hF' k2 rfl
      refine ⟨es, framed_list_unique _ items ?_ g1 e1.symm, framed_list_unique _ items' ?_ g2 e2.symm, k6⟩
      · intro x hx
        obtain ⟨p, hp, rfl⟩ := List.mem_map.1 hx
        exact (alike_framed (k6 p hp)).1
      · intro x hx
        obtain ⟨p, hp, rfl⟩ := List.mem_map.1 hx
        exact (alike_framed (k6 p hp)).2

theorem leaf_notList {D : Deps} {h : Header} {c : Bytes} {x : Content} (hL : Leaf D h c x) :
    ¬ (h.cls = .universal ∧ (h.tag = 16 ∨ h.tag = 17)) := fun hn => leaf_list_elim hL hn.1 hn.2

theorem eraseC_leaf_ne {D : Deps} {h : Header} {c : Bytes} {x : Content} (hL : Leaf D h c x) (l : List BerObject) :
    eraseC x ≠ .sequence l ∧ eraseC x ≠ .set l := by
  cases x <;> first | exact hL.elim | simp [eraseC]

theorem denotes_alike {D : Deps} {d : Nat} {h : Header} {c : Bytes} {x : Content} (H : Denotes D d h c x) :
    ∀ (e : Bytes), Framed 50 e h c → ∀ (d' : Nat) (h' : Header) (c' : Bytes) (x' : Content) (e' : Bytes),
      Framed 50 e' h' c' → Denotes D d' h' c' x' → (erase (.mk h x) = erase (.mk h' x') ↔ Alike D e e') := by
  induction H with
  | leaf d h c x hL =>
    intro e hF d' h' c' x' e' hF' H'
    simp only [erase, BerObject.mk.injEq, eraseH_iff]
    cases H' with
    | leaf d' _ _ _ hL' =>
      rw [alike_leaf hF hF' (leaf_notList hL)]
      exact and_congr_right fun hi => leaf_same hL hL' hi
    | sequence d' _ items k1 k2 k3 k4 k5 =>
      refine ⟨fun g => ((eraseC_leaf_ne hL _).1 g.2).elim, fun g => ?_⟩
      have hi := alike_ident hF hF' g
      exact (leaf_list_elim hL (hi.1.trans k1) (.inl (hi.2.2.trans k2))).elim
    | set d' _ items k1 k2 k3 k4 k5 =>
      refine ⟨fun g => ((eraseC_leaf_ne hL _).2 g.2).elim, fun g => ?_⟩
      have hi := alike_ident hF hF' g
      exact (leaf_list_elim hL (hi.1.trans k1) (.inr (hi.2.2.trans k2))).elim
  | sequence d h items a1 a2 a3 a4 a5 ih =>
    intro e hF d' h' c' x' e' hF' H'
    simp only [erase, BerObject.mk.injEq, eraseH_iff]
    cases H' with
    | leaf d' _ _ _ hL' =>
      refine ⟨fun g => ((eraseC_leaf_ne hL' _).1 g.2.symm).elim, fun g => ?_⟩
      have hi := alike_ident hF hF' g
      exact (leaf_list_elim hL' (hi.1.symm.trans a1) (.inl (hi.2.2.symm.trans a2))).elim
    | sequence d' _ items' k1 k2 k3 k4 k5 =>
      simp only [eraseC, Content.sequence.injEq]
      have hi : SameIdent h h' := ⟨a1.trans k1.symm, a3.trans k3.symm, a2.trans k2.symm⟩
      rw [alike_list hF hF' a1 (.inl a2) hi a4 k4 fun it hit it' hit' =>
        ih it hit it.bytes (a4 it hit) d' it'.header it'.body it'.value it'.bytes (k4 it' hit') (k5 it' hit')]
      exact ⟨fun g => g.2, fun g => ⟨hi, g⟩⟩
    | set d' _ items' k1 k2 k3 k4 k5 =>
      refine ⟨fun g => by simp [eraseC] at g, fun g => ?_⟩
      have := (alike_ident hF hF' g).2.2
      omega
  | set d h items a1 a2 a3 a4 a5 ih =>
    intro e hF d' h' c' x' e' hF' H'
    simp only [erase, BerObject.mk.injEq, eraseH_iff]
    cases H' with
    | leaf d' _ _ _ hL' =>
      refine ⟨fun g => ((eraseC_leaf_ne hL' _).2 g.2.symm).elim, fun g => ?_⟩
      have hi := alike_ident hF hF' g
      exact (leaf_list_elim hL' (hi.1.symm.trans a1) (.inr (hi.2.2.symm.trans a2))).elim
    | sequence d' _ items' k1 k2 k3 k4 k5 =>
      refine ⟨fun g => by simp [eraseC] at g, fun g => ?_⟩
      have := (alike_ident hF hF' g).2.2
      omega
    | set d' _ items' k1 k2 k3 k4 k5 =>
      simp only [eraseC, Content.set.injEq]
      have hi : SameIdent h h' := ⟨a1.trans k1.symm, a3.trans k3.symm, a2.trans k2.symm⟩
      rw [alike_list hF hF' a1 (.inr a2) hi a4 k4 fun it hit it' hit' =>
        ih it hit it.bytes (a4 it hit) d' it'.header it'.body it'.value it'.bytes (k4 it' hit') (k5 it' hit')]
      exact ⟨fun g => g.2, fun g => ⟨hi, g⟩⟩

/-! ## C104 -/

/-- C104: two accepted inputs are read as the same tree, apart from lengths and raw tags in headers, exactly if they are
the same element apart from the options of the sender. -/
theorem C104_iff (D : Deps) (d d' : Nat) (e e' r r' : Bytes) (o o' : BerObject)
    (h : parseBerRecursive D d (e ++ r) = .ok (r, o)) (h' : parseBerRecursive D d' (e' ++ r') = .ok (r', o')) :
    erase o = erase o' ↔ Alike D e e' := by
  obtain ⟨e1, c, h1, h2, h3⟩ := parseBerRecursive_iff.1 h
  obtain rfl := List.append_cancel_right h1
  obtain ⟨e2, c', k1, k2, k3⟩ := parseBerRecursive_iff.1 h'
  obtain rfl := List.append_cancel_right k1
  rw [← BerObject.eta o, ← BerObject.eta o']
  exact denotes_alike h3 _ h2 d' _ c' _ _ k2 k3

/-- C104: a change of anything else is noticed: no octet of the contents of an INTEGER, OCTET STRING, BIT STRING, OBJECT
IDENTIFIER, string or element of another class can be changed without changing the result. -/
theorem C104_verbatim (D : Deps) (d d' : Nat) (e e' r r' c c' : Bytes) (o o' : BerObject)
    (h : parseBerRecursive D d (e ++ r) = .ok (r, o)) (h' : parseBerRecursive D d' (e' ++ r') = .ok (r', o'))
    (ho : erase o = erase o') (hF : Framed 50 e o.header c) (hF' : Framed 50 e' o'.header c')
    (ht : o.header.cls ≠ .universal ∨ o.header.tag ∉ [0, 1, 5, 10, 16, 17, 23, 24]) : c = c' := by
  have hA := (C104_iff D d d' e e' r r' o o' h h').1 ho
  have hS := ((alike_leaf hF hF' (fun hn => by
    rcases ht with ht | ht
    · exact ht hn.1
    · simp at ht; omega)).1 hA).2
  by_cases hc : o.header.cls = .universal
  · have ht := ht.resolve_left (fun h => h hc)
    exact (hS.2 hc).2.2.2.2 (by simp at ht ⊢; omega)
  · exact hS.1 hc

/-- The OCTET STRING 07 with a short length and with a length in two octets. -/
example := C104_verbatim Tests.D0 50 50 [0x04, 0x01, 7] [0x04, 0x81, 0x01, 7] [] [9] [7] [7] _ _ rfl rfl rfl
  (framed_read rfl) (framed_read rfl) (.inr (by decide))

theorem parseDer_ber_erase {D : Deps} (hT : TimesKnown D) {d : Nat} {i rem : Bytes} {o : BerObject}
    (h : parseDerRecursive D (d + 1) i = .ok (rem, o)) :
    ∃ o', parseBerRecursive D (d + 1) i = .ok (rem, o') ∧ erase o' = erase o := by
  obtain ⟨o', h1, -, h2⟩ := C36_parse_der_partial D hT d i rem o h
  refine ⟨o', h1, ?_⟩
  rcases h2 with rfl | ⟨c, h2, rfl⟩
  · rfl
  · obtain ⟨hb, c', -, -, -, -, h3⟩ := (C63_parse_der_exact D hT d i rem o).1 h
    have hu : o.header.cls = .universal := by
      rcases h3 with ⟨h3, h4⟩ | ⟨h3, -⟩
      · rw [h2] at h4
        simp only [Content.unknown.injEq, Any.mk.injEq] at h4
        exact absurd (by rw [← h4.1]; rfl) h3
      · exact h3
    obtain ⟨hd, x⟩ := o
    have h2 : x = .unknown ⟨Header.new .universal hd.constructed hd.tag hd.length, c⟩ := h2
    have hu : hd.cls = .universal := hu
    subst h2
    simp only [erase, eraseC, eraseH, Header.new, BerObject.header]
    simpa using hu

/-- C104 for `parse_der`, and exactly what is left of C35: the inputs that are read alike. -/
theorem C104_der_iff (D : Deps) (hT : TimesKnown D) (d d' : Nat) (e e' r r' : Bytes) (o o' : BerObject)
    (h : parseDerRecursive D (d + 1) (e ++ r) = .ok (r, o)) (h' : parseDerRecursive D (d' + 1) (e' ++ r') = .ok (r', o')) :
    erase o = erase o' ↔ Alike D e e' := by
  obtain ⟨p, h1, h2⟩ := parseDer_ber_erase hT h
  obtain ⟨p', h3, h4⟩ := parseDer_ber_erase hT h'
  rw [← h2, ← h4]
  exact C104_iff D _ _ e e' r r' p p' h1 h3

/-- SEQUENCE { BOOLEAN true } in two forms, and SEQUENCE { BOOLEAN false }. -/
example (D : Deps) : Alike D [0x30, 0x03, 0x01, 0x01, 0xff] [0x30, 0x80, 0x01, 0x81, 0x01, 0x05, 0x00, 0x00] ∧
    ¬ Alike D [0x30, 0x03, 0x01, 0x01, 0xff] [0x30, 0x03, 0x01, 0x01, 0x00] := by
  let o (l l' : Length) (v : Bool) : BerObject := .mk ⟨.universal, true, 16, l, some [0x30]⟩
    (.sequence [.mk ⟨.universal, false, 1, l', some [0x01]⟩ (.boolean v)])
  have h1 : parseBerRecursive D 50 ([0x30, 0x03, 0x01, 0x01, 0xff] ++ []) =
    .ok ([], o (.definite 3) (.definite 1) true) := rfl
  have h2 : parseBerRecursive D 50 ([0x30, 0x80, 0x01, 0x81, 0x01, 0x05, 0x00, 0x00] ++ []) =
    .ok ([], o .indefinite (.definite 1) true) := rfl
  have h3 : parseBerRecursive D 50 ([0x30, 0x03, 0x01, 0x01, 0x00] ++ []) =
    .ok ([], o (.definite 3) (.definite 1) false) := rfl
  refine ⟨(C104_iff D 50 50 _ _ [] [] _ _ h1 h2).1 rfl, fun h => ?_⟩
  have := (C104_iff D 50 50 _ _ [] [] _ _ h1 h3).2 h
  simp [o, erase, eraseC, eraseL] at this

end Verif
