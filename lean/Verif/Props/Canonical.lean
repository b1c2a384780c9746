import Verif.Props.Serialize
import Verif.Props.Der
/-!
# Property C83: documents that survive parsing and serializing
-/
namespace Verif
open Outcome Spec

/-! ## Specification -/

/-- Contents octets that are written as they were read: end-of-contents is one zero octet (X.690: none),
BOOLEAN `00` or `ff`, NULL empty, ENUMERATED without leading zero octet (and empty for zero, against
X.690), times in the form the writer uses; SEQUENCE and SET are not here; everything else is verbatim. -/
structure Spec.PlainContents (D : Deps) (k : Bool) (num : Nat) (c : Bytes) : Prop where
  eoc : num = 0 → c = [0]
  bool : num = 1 → c = [0x00] ∨ c = [0xff]
  null : num = 5 → c = []
  enum : num = 10 → MinOctets c (base256 c)
  utc : num = 23 → ∀ t, D.utcTime k c = .ok t → D.display t = c
  generalized : num = 24 → ∀ t, D.generalizedTime k c = .ok t → D.display t = c
  leaf : num ≠ 16 ∧ num ≠ 17

/-- Elements in the one form that the serializer writes: one identifier octet, the shortest definite
length, plain contents, at every level of SEQUENCE and SET. -/
inductive Spec.Canonical (D : Deps) : Bytes → Prop
  | leaf (b : UInt8) (len c : Bytes) (cls : Class) (k : Bool) (num : Nat) : IdentOctets [b] cls k num →
      MinLen len c.length → (cls = .universal → PlainContents D k num c) → Canonical D (b :: (len ++ c))
  | list (b : UInt8) (len : Bytes) (es : List Bytes) (num : Nat) : IdentOctets [b] .universal true num →
      num = 16 ∨ num = 17 → MinLen len es.flatten.length → (∀ e ∈ es, Canonical D e) →
      Canonical D (b :: (len ++ es.flatten))

/-! ## Lemmas -/

theorem minHeader {b : UInt8} {len v : Bytes} {cls : Class} {k : Bool} {num : Nat}
    (h1 : IdentOctets [b] cls k num) (h2 : MinLen len v.length) (hv : v.length < 2 ^ 64) :
    BerHeader (b :: len) ⟨cls, k, num, .definite v.length, some [b]⟩ := by
  refine ⟨⟨[b], len, num, rfl, h1, h2.1, ?_, by simp, rfl⟩, fun n hn => by cases hn; exact hv, by simp⟩
  obtain ⟨ht, _⟩ := identOctet_iff (h := ⟨cls, k, num, .definite 0, none⟩).1 h1
  have ht : num ≤ 30 := ht
  exact (Nat.mod_eq_of_lt (Nat.lt_of_le_of_lt ht (by decide))).symm

theorem minFramed {b : UInt8} {len v : Bytes} {cls : Class} {k : Bool} {num : Nat}
    (h1 : IdentOctets [b] cls k num) (h2 : MinLen len v.length) (hv : v.length < 2 ^ 64) :
    Framed 50 (b :: (len ++ v)) ⟨cls, k, num, .definite v.length, some [b]⟩ v :=
  .definite (b :: len) v _ (minHeader h1 h2 hv) rfl

theorem framed_unique {e e' r r' c c' : Bytes} {h h' : Header} (H : Framed 50 e h c) (H' : Framed 50 e' h' c')
    (he : e ++ r = e' ++ r') : e = e' ∧ r = r' ∧ h = h' ∧ c = c' := by
  have h1 := (anyFromBer_framed (i := e ++ r) (rem := r) (a := ⟨h, c⟩)).2 ⟨e, rfl, H⟩
  have h2 := (anyFromBer_framed (i := e ++ r) (rem := r') (a := ⟨h', c'⟩)).2 ⟨e', he, H'⟩
  rw [h1] at h2
  simp only [ok.injEq, Prod.mk.injEq, Any.mk.injEq] at h2
  obtain ⟨rfl, rfl, rfl⟩ := h2
  exact ⟨List.append_cancel_right he, rfl, rfl, rfl⟩

theorem frames_unique {es fs : List Bytes} (he : ∀ e ∈ es, ∃ h c, Framed 50 e h c)
    (hf : ∀ e ∈ fs, ∃ h c, Framed 50 e h c) (h : es.flatten = fs.flatten) : es = fs := by
  induction es generalizing fs with
  | nil =>
    cases fs with
    | nil => rfl
    | cons f fs =>
      obtain ⟨_, _, hF⟩ := hf f (by simp)
      have := framed_nonempty hF
      have h0 := congrArg List.length h
      simp only [List.flatten_nil, List.flatten_cons, List.length_nil, List.length_append] at h0
      omega
  | cons e es ih =>
    cases fs with
    | nil =>
      obtain ⟨_, _, hF⟩ := he e (by simp)
      have := framed_nonempty hF
      have h0 := congrArg List.length h
      simp only [List.flatten_nil, List.flatten_cons, List.length_nil, List.length_append] at h0
      omega
    | cons f fs =>
      obtain ⟨_, _, h1⟩ := he e (by simp)
      obtain ⟨_, _, h2⟩ := hf f (by simp)
      rw [List.flatten_cons, List.flatten_cons] at h
      obtain ⟨rfl, h3, _⟩ := framed_unique h1 h2 h
      rw [ih (fun x hx => he x (by simp [hx])) (fun x hx => hf x (by simp [hx])) h3]

theorem length_le_flatten {es : List Bytes} {e : Bytes} (h : e ∈ es) : e.length ≤ es.flatten.length := by
  induction es with
  | nil => simp at h
  | cons x es ih =>
    rw [List.flatten_cons, List.length_append]
    rcases List.mem_cons.1 h with rfl | h
    · omega
    · have := ih h; omega

theorem canonical_framed {D : Deps} {e : Bytes} (h : Canonical D e) (hl : e.length < 2 ^ 64) :
    ∃ hd c, Framed 50 e hd c := by
  cases h with
  | leaf b len c cls k num h1 h2 _ =>
    exact ⟨_, _, minFramed h1 h2 (by simp only [List.length_cons, List.length_append] at hl; omega)⟩
  | list b len es num h1 _ h2 _ =>
    exact ⟨_, _, minFramed h1 h2 (by simp only [List.length_cons, List.length_append] at hl; omega)⟩

/-- The elements written for a list. -/
theorem encodesL_pieces {D : Deps} {l : List BerObject} {v : Bytes} (h : EncodesL D l v) :
    ∃ es : List Bytes, v = es.flatten ∧ es.length = l.length ∧ ∀ p ∈ l.zip es, Encodes D p.1 p.2 := by
  induction l generalizing v with
  | nil => exact ⟨[], h, rfl, by simp⟩
  | cons o l ih =>
    obtain ⟨a, b, rfl, h1, h2⟩ := h
    obtain ⟨es, rfl, h3, h4⟩ := ih h2
    refine ⟨a :: es, by simp, by simp [h3], fun p hp => ?_⟩
    rcases List.mem_cons.1 hp with rfl | hp
    · exact h1
    · exact h4 p hp

theorem encodesL_of_pieces {D : Deps} {l : List BerObject} {es : List Bytes} (hl : es.length = l.length)
    (h : ∀ p ∈ l.zip es, Encodes D p.1 p.2) : EncodesL D l es.flatten := by
  induction l generalizing es with
  | nil =>
    cases es with
    | nil => rfl
    | cons e es => simp at hl
  | cons o l ih =>
    cases es with
    | nil => simp at hl
    | cons e es =>
      exact ⟨e, es.flatten, by simp, h (o, e) (by simp), ih (by simpa using hl) fun p hp => h p (by simp [hp])⟩

theorem encodes_framed {D : Deps} {o : BerObject} {e : Bytes} (h : Encodes D o e) (hl : e.length < 2 ^ 64) :
    ∃ hd c, Framed 50 e hd c := by
  obtain ⟨hd, x⟩ := o
  obtain ⟨b, len, v, rfl, h1, h2, _⟩ := h
  exact ⟨_, _, minFramed h1 h2 (by simp only [List.length_cons, List.length_append] at hl; omega)⟩

theorem plain_other {D : Deps} {k : Bool} {num : Nat} {c : Bytes}
    (h : num ∉ [0, 1, 5, 10, 16, 17, 23, 24]) : PlainContents D k num c := by
  simp only [List.mem_cons, List.not_mem_nil, or_false, not_or] at h
  constructor <;> intros <;> omega

theorem strTag_plain (k : StrKind) : strTag k ∉ [0, 1, 5, 10, 16, 17, 23, 24] := by
  cases k <;> decide

theorem leaf_plain {D : Deps} {h : Header} {c : Bytes} {x : Content} (hL : Leaf D h c x) :
    EncodesC D x c ↔ (h.cls = .universal → PlainContents D h.constructed h.tag c) := by
  cases x with
  | endOfContent =>
    obtain ⟨h1, h2⟩ := hL
    simp only [EncodesC, h1, h2, true_imp_iff]
    exact ⟨fun h => by constructor <;> intros <;> first | omega | assumption, fun h => h.eoc rfl⟩
  | boolean v =>
    obtain ⟨h1, h2, _, b, rfl, rfl⟩ := hL
    simp only [EncodesC, h1, h2, true_imp_iff]
    constructor
    · intro h
      constructor <;> intros <;> try omega
      by_cases hb : b = 0
      · simp [hb]
      · simp [hb] at h; simp [h]
    · intro h
      rcases h.bool rfl with h | h
      · cases h; rfl
      · cases h; rfl
  | null =>
    obtain ⟨h1, h2⟩ := hL
    simp only [EncodesC, h1, h2, true_imp_iff]
    exact ⟨fun h => by constructor <;> intros <;> first | omega | assumption, fun h => h.null rfl⟩
  | enum n =>
    obtain ⟨h1, h2, _, rfl, h3⟩ := hL
    simp only [EncodesC, h1, h2, true_imp_iff]
    rw [Nat.mod_eq_of_lt (by omega)]
    exact ⟨fun h => by constructor <;> intros <;> first | omega | assumption, fun h => h.enum rfl⟩
  | utcTime t =>
    obtain ⟨h1, h2, h3⟩ := hL
    simp only [EncodesC, h1, h2, true_imp_iff]
    constructor
    · intro h
      constructor <;> intros <;> try omega
      rename_i t' h4
      rw [h3] at h4
      cases h4
      exact h.symm
    · intro h
      exact (h.utc rfl t h3).symm
  | generalizedTime t =>
    obtain ⟨h1, h2, h3⟩ := hL
    simp only [EncodesC, h1, h2, true_imp_iff]
    constructor
    · intro h
      constructor <;> intros <;> try omega
      rename_i t' h4
      rw [h3] at h4
      cases h4
      exact h.symm
    · intro h
      exact (h.generalized rfl t h3).symm
  | unknown a =>
    obtain ⟨rfl, h2⟩ := hL
    simp only [EncodesC, true_iff]
    intro h1
    rcases h2 with h2 | h2
    · exact absurd h1 h2
    · apply plain_other
      intro h3
      simp only [List.mem_cons, List.not_mem_nil, or_false] at h2 h3
      omega
  | integer s => obtain ⟨h1, h2, rfl⟩ := hL; simp only [EncodesC, true_iff, h1, h2]; exact fun _ => plain_other (by decide)
  | bitString u s => obtain ⟨h1, h2, _, rfl⟩ := hL; simp only [EncodesC, true_iff, h1, h2]; exact fun _ => plain_other (by decide)
  | octetString s => obtain ⟨h1, h2, rfl⟩ := hL; simp only [EncodesC, true_iff, h1, h2]; exact fun _ => plain_other (by decide)
  | oid s => obtain ⟨h1, h2, rfl⟩ := hL; simp only [EncodesC, true_iff, h1, h2]; exact fun _ => plain_other (by decide)
  | relativeOid s => obtain ⟨h1, h2, rfl⟩ := hL; simp only [EncodesC, true_iff, h1, h2]; exact fun _ => plain_other (by decide)
  | universalString s => obtain ⟨h1, h2, _, rfl⟩ := hL; simp only [EncodesC, true_iff, h1, h2]; exact fun _ => plain_other (by decide)
  | bmpString s => obtain ⟨h1, h2, _, rfl, _⟩ := hL; simp only [EncodesC, true_iff, h1, h2]; exact fun _ => plain_other (by decide)
  | str k s => obtain ⟨h1, h2, _, rfl, _⟩ := hL; simp only [EncodesC, true_iff, h1, h2]; exact fun _ => plain_other (strTag_plain k)
  | sequence l => exact hL.elim
  | set l => exact hL.elim
  | optionalNone => exact hL.elim
  | optionalSome o => exact hL.elim
  | tagged k t o => exact hL.elim

theorem leaf_not_list {D : Deps} {h : Header} {c : Bytes} {x : Content} (hL : Leaf D h c x)
    (hc : h.cls = .universal) : h.tag ≠ 16 ∧ h.tag ≠ 17 := by
  cases x <;> simp only [Leaf] at hL
  case str k s => obtain ⟨_, h2, _⟩ := hL; rw [h2]; cases k <;> decide
  case unknown a =>
    obtain ⟨_, h2 | h2⟩ := hL
    · exact absurd hc h2
    · simp only [List.mem_cons, List.not_mem_nil, or_false] at h2
      omega
  all_goals omega

/-- The outer part: an encoding of an object that frames contents `c` under the header of the object. -/
theorem encodes_outer {D : Deps} {h : Header} {c e : Bytes} {x : Content} (hF : Framed 50 e h c)
    (hl : e.length < 2 ^ 64) : Encodes D (.mk h x) e ↔
      (∃ b len, e = b :: (len ++ c) ∧ IdentOctets [b] h.cls h.constructed h.tag ∧ MinLen len c.length) ∧
        EncodesC D x c := by
  constructor
  · rintro ⟨b, len, v, rfl, h1, h2, h3⟩
    have hv : v.length < 2 ^ 64 := by simp only [List.length_cons, List.length_append] at hl; omega
    obtain ⟨_, _, _, rfl⟩ := framed_unique (r := []) (r' := []) hF (minFramed h1 h2 hv) rfl
    exact ⟨⟨b, len, rfl, h1, h2⟩, h3⟩
  · rintro ⟨⟨b, len, rfl, h1, h2⟩, h3⟩
    exact ⟨b, len, c, rfl, h1, h2, h3⟩

theorem items_canonical {D : Deps} {items : List Item} (hF : ∀ it ∈ items, Framed 50 it.bytes it.header it.body)
    (ih : ∀ it ∈ items, it.bytes.length < 2 ^ 64 →
      (Encodes D (.mk it.header it.value) it.bytes ↔ Canonical D it.bytes))
    (hl : (items.flatMap Item.bytes).length < 2 ^ 64) :
    EncodesL D (items.map fun it => .mk it.header it.value) (items.flatMap Item.bytes) ↔
      ∃ es : List Bytes, items.flatMap Item.bytes = es.flatten ∧ ∀ e ∈ es, Canonical D e := by
  have hfl : items.flatMap Item.bytes = (items.map Item.bytes).flatten := by rw [List.flatMap_def]
  rw [hfl] at hl ⊢
  have hlen : ∀ it ∈ items, it.bytes.length < 2 ^ 64 := fun it hit =>
    Nat.lt_of_le_of_lt (length_le_flatten (List.mem_map_of_mem hit)) hl
  have hfr : ∀ e ∈ items.map Item.bytes, ∃ h c, Framed 50 e h c := by
    intro e he
    obtain ⟨it, hit, rfl⟩ := List.mem_map.1 he
    exact ⟨_, _, hF it hit⟩
  have hzip : ∀ p : BerObject × Bytes, p ∈ (items.map fun it => BerObject.mk it.header it.value).zip (items.map Item.bytes) ↔
      ∃ it ∈ items, p = (.mk it.header it.value, it.bytes) := by
    intro p
    rw [List.zip_map', List.mem_map]
    exact ⟨fun ⟨it, h1, h2⟩ => ⟨it, h1, h2.symm⟩, fun ⟨it, h1, h2⟩ => ⟨it, h1, h2.symm⟩⟩
  constructor
  · intro h
    obtain ⟨es, h1, h2, h3⟩ := encodesL_pieces h
    have hes : items.map Item.bytes = es := frames_unique hfr (fun e he => by
      obtain ⟨n, hn, rfl⟩ := List.getElem_of_mem he
      have := h3 ((items.map fun it => BerObject.mk it.header it.value)[n]'(by omega), es[n])
        (List.mem_iff_getElem.2 ⟨n, by simp at h2 ⊢; omega, by simp⟩)
      exact encodes_framed this (Nat.lt_of_le_of_lt (length_le_flatten he) (h1 ▸ hl))) h1
    subst hes
    refine ⟨_, rfl, fun e he => ?_⟩
    obtain ⟨it, hit, rfl⟩ := List.mem_map.1 he
    exact (ih it hit (hlen it hit)).1 (h3 _ ((hzip _).2 ⟨it, hit, rfl⟩))
  · rintro ⟨es, h1, h2⟩
    have hes : items.map Item.bytes = es := frames_unique hfr (fun e he =>
      canonical_framed (h2 e he) (Nat.lt_of_le_of_lt (length_le_flatten he) (h1 ▸ hl))) h1
    subst hes
    refine encodesL_of_pieces (by simp) fun p hp => ?_
    obtain ⟨it, hit, rfl⟩ := (hzip _).1 hp
    exact (ih it hit (hlen it hit)).2 (h2 _ (List.mem_map_of_mem hit))

theorem canonical_outer {D : Deps} {h : Header} {c e : Bytes} (hF : Framed 50 e h c) (hl : e.length < 2 ^ 64) :
    Canonical D e ↔
      (∃ b len, e = b :: (len ++ c) ∧ IdentOctets [b] h.cls h.constructed h.tag ∧ MinLen len c.length) ∧
        ((h.cls = .universal → PlainContents D h.constructed h.tag c) ∨
          (h.cls = .universal ∧ h.constructed = true ∧ (h.tag = 16 ∨ h.tag = 17) ∧
            ∃ es : List Bytes, c = es.flatten ∧ ∀ e ∈ es, Canonical D e)) := by
  constructor
  · intro H
    cases H with
    | leaf b len v cls k num h1 h2 h3 =>
      have hv : v.length < 2 ^ 64 := by simp only [List.length_cons, List.length_append] at hl; omega
      obtain ⟨_, _, rfl, rfl⟩ := framed_unique (r := []) (r' := []) hF (minFramed h1 h2 hv) rfl
      exact ⟨⟨b, len, rfl, h1, h2⟩, .inl h3⟩
    | list b len es num h1 hn h2 h3 =>
      have hv : es.flatten.length < 2 ^ 64 := by simp only [List.length_cons, List.length_append] at hl; omega
      obtain ⟨_, _, rfl, rfl⟩ := framed_unique (r := []) (r' := []) hF (minFramed h1 h2 hv) rfl
      exact ⟨⟨b, len, rfl, h1, h2⟩, .inr ⟨rfl, rfl, hn, es, rfl, h3⟩⟩
  · rintro ⟨⟨b, len, rfl, h1, h2⟩, h3 | ⟨h3, h4, h5, es, rfl, h6⟩⟩
    · exact .leaf b len c _ _ _ h1 h2 h3
    · rw [h3, h4] at h1
      exact .list b len es _ h1 h5 h2 h6

theorem framed_body_le {n : Nat} {e c : Bytes} {h : Header} (hF : Framed n e h c) : c.length ≤ e.length := by
  cases hF with
  | definite hb _ _ _ _ => rw [List.length_append]; omega
  | indefinite m hb es t _ _ _ _ _ _ => simp only [List.length_take, List.length_append]; omega

theorem denotes_canonical {D : Deps} {d : Nat} {h : Header} {c e : Bytes} {x : Content}
    (hD : Denotes D d h c x) (hF : Framed 50 e h c) (hl : e.length < 2 ^ 64) :
    Encodes D (.mk h x) e ↔ Canonical D e := by
  induction hD generalizing e with
  | leaf d h c x hL =>
    rw [encodes_outer hF hl, canonical_outer hF hl, leaf_plain hL]
    constructor
    · rintro ⟨h1, h2⟩; exact ⟨h1, .inl h2⟩
    · rintro ⟨h1, h2 | ⟨h2, _, h3, _⟩⟩
      · exact ⟨h1, h2⟩
      · have := leaf_not_list hL h2
        omega
  | sequence d h items h1 h2 h3 h4 h5 ih =>
    have hc : (items.flatMap Item.bytes).length < 2 ^ 64 := by
      have := framed_body_le hF
      omega
    rw [encodes_outer hF hl, canonical_outer hF hl, EncodesC,
      items_canonical h4 (fun it hit => ih it hit (h4 it hit)) hc]
    constructor
    · rintro ⟨g1, g2⟩; exact ⟨g1, .inr ⟨h1, h3, .inl h2, g2⟩⟩
    · rintro ⟨g1, g2 | ⟨_, _, _, g2⟩⟩
      · exact absurd h2 (g2 h1).leaf.1
      · exact ⟨g1, g2⟩
  | set d h items h1 h2 h3 h4 h5 ih =>
    have hc : (items.flatMap Item.bytes).length < 2 ^ 64 := by
      have := framed_body_le hF
      omega
    rw [encodes_outer hF hl, canonical_outer hF hl, EncodesC,
      items_canonical h4 (fun it hit => ih it hit (h4 it hit)) hc]
    constructor
    · rintro ⟨g1, g2⟩; exact ⟨g1, .inr ⟨h1, h3, .inr h2, g2⟩⟩
    · rintro ⟨g1, g2 | ⟨_, _, _, g2⟩⟩
      · exact absurd h2 (g2 h1).leaf.2
      · exact ⟨g1, g2⟩

/-! ## C83 -/

/-- C83: parsing and serializing gives back the octets read exactly if they are canonical. -/
theorem C83_fixed_iff_canonical (D : Deps) (d : Nat) (e rem : Bytes) (o : BerObject)
    (h : parseBerRecursive D d (e ++ rem) = .ok (rem, o)) (hl : e.length < 2 ^ 64) :
    toVec D o = .ok e ↔ Canonical D e := by
  obtain ⟨e', c, h1, hF, hD⟩ := parseBerRecursive_iff.1 h
  obtain rfl := List.append_cancel_right h1
  rw [C49_exact D o e hl, ← denotes_canonical hD hF hl, BerObject.eta]

/-- SEQUENCE { INTEGER 5, BOOLEAN true }, to show that the hypotheses below can be met. -/
theorem canonical_small (D : Deps) : Canonical D [0x30, 0x06, 0x02, 0x01, 0x05, 0x01, 0x01, 0xff] := by
  obtain ⟨o, h⟩ : ∃ o, parseBerRecursive D 50 ([0x30, 0x06, 0x02, 0x01, 0x05, 0x01, 0x01, 0xff] ++ []) = .ok ([], o) :=
    ⟨_, rfl⟩
  refine (C83_fixed_iff_canonical D 50 _ [] o h (by decide)).1 ?_
  cases h
  rfl

/-- C83 for `parse_der`. -/
theorem C83_der_fixed_iff_canonical (D : Deps) (hT : TimesKnown D) (d : Nat) (e rem : Bytes) (o : BerObject)
    (h : parseDerRecursive D (d + 1) (e ++ rem) = .ok (rem, o)) (hl : e.length < 2 ^ 64) :
    toVec D o = .ok e ↔ Canonical D e := by
  obtain ⟨o', h1, _, h2⟩ := C36_parse_der_partial D hT d _ _ _ h
  rw [← C83_fixed_iff_canonical D (d + 1) e rem o' h1 hl]
  rcases h2 with rfl | ⟨c, h2, rfl⟩
  · rfl
  · obtain ⟨hd, x⟩ := o
    have h2 : x = .unknown ⟨Header.new .universal hd.constructed hd.tag hd.length, c⟩ := h2
    subst h2
    rfl

example := (C83_der_fixed_iff_canonical Tests.D0 (fun _ _ _ => by simp [Tests.D0]) 49
  [0x30, 0x06, 0x02, 0x01, 0x05, 0x01, 0x01, 0xff] [9] _ rfl (by decide)).1 rfl

/-- C83: canonical encodings are unique: one object, one encoding. -/
theorem C83_unique (D : Deps) (d d' : Nat) (e e' rem rem' : Bytes) (o o' : BerObject)
    (h : parseBerRecursive D d (e ++ rem) = .ok (rem, o)) (h' : parseBerRecursive D d' (e' ++ rem') = .ok (rem', o'))
    (hl : e.length < 2 ^ 64) (hl' : e'.length < 2 ^ 64) (hc : Canonical D e) (hc' : Canonical D e')
    (ho : erase o = erase o') : e = e' := by
  have h1 := (C83_fixed_iff_canonical D d e rem o h hl).2 hc
  have h2 := (C83_fixed_iff_canonical D d' e' rem' o' h' hl').2 hc'
  rw [C49_stored_lengths_ignored D o o' ho, h2] at h1
  exact (ok.inj h1).symm

example := C83_unique Tests.D0 50 2 [0x30, 0x06, 0x02, 0x01, 0x05, 0x01, 0x01, 0xff]
  [0x30, 0x06, 0x02, 0x01, 0x05, 0x01, 0x01, 0xff] [9] [] _ _ rfl rfl (by decide) (by decide) (canonical_small _)
  (canonical_small _) rfl

/-- C83: what the serializer writes for a well-formed tree is canonical. -/
theorem C83_output_canonical (D : Deps) (o : BerObject) (e : Bytes) (hW : Wf D 50 o)
    (h : toVec D o = .ok e) (hl : e.length < 2 ^ 64) : Canonical D e := by
  obtain ⟨e', h1, h2⟩ := C46_serialize_parse D o hW
  rw [h] at h1
  obtain rfl := ok.inj h1
  obtain ⟨o', h3, h4⟩ := h2 hl []
  rw [← C83_fixed_iff_canonical D 50 e [] o' h3 hl, C49_stored_lengths_ignored D o' o h4, h]

example := C83_output_canonical Tests.D0 (.fromSeq [.fromIntSlice [0x00, 0x80], .fromObj .null]) _
  (.sequence 49 _ _ rfl rfl rfl (by
    simp only [List.forall_mem_cons, List.not_mem_nil, false_imp_iff, implies_true, and_true]
    exact ⟨.leaf 48 _ _ (by decide) ⟨rfl, rfl⟩, .leaf 48 _ _ (by decide) ⟨rfl, rfl⟩⟩)) rfl (by decide)

/-- C83: valid DER that does not survive.  ENUMERATED zero is written without contents octets (against
X.690 8.4 and 8.3.1), end-of-contents with one; both are accepted by `parse_der`. -/
theorem C83_valid_der_changed_counterexample (D : Deps) :
    (∃ o, parseDer D [0x0a, 0x01, 0x00] = .ok ([], o) ∧ toVec D o = .ok [0x0a, 0x00]) ∧
    (∃ o, parseDer D [0x00, 0x00] = .ok ([], o) ∧ toVec D o = .ok [0x00, 0x01, 0x00]) :=
  ⟨⟨_, rfl, rfl⟩, ⟨_, rfl, rfl⟩⟩

/-- C83: `parse_der` accepts non-canonical input: a length octet too many, indefinite lengths inside. -/
theorem C83_accepted_not_canonical (D : Deps) :
    (∃ o, parseDer D [0x04, 0x81, 0x01, 0x07] = .ok ([], o) ∧ toVec D o = .ok [0x04, 0x01, 0x07]) ∧
    (∃ o, parseDer D [0x30, 0x04, 0x30, 0x80, 0x00, 0x00] = .ok ([], o) ∧
      toVec D o = .ok [0x30, 0x02, 0x30, 0x00]) :=
  ⟨⟨_, rfl, rfl⟩, ⟨_, rfl, rfl⟩⟩

/-- SEQUENCE { INTEGER 5, [0] with contents 01, BOOLEAN true }. -/
example (D : Deps) : Canonical D [0x30, 0x09, 0x02, 0x01, 0x05, 0x80, 0x01, 0x01, 0x01, 0x01, 0xff] := by
  obtain ⟨o, h⟩ : ∃ o, parseBerRecursive D 50
      ([0x30, 0x09, 0x02, 0x01, 0x05, 0x80, 0x01, 0x01, 0x01, 0x01, 0xff] ++ []) = .ok ([], o) := ⟨_, rfl⟩
  refine (C83_fixed_iff_canonical D 50 _ [] o h (by decide)).1 ?_
  cases h
  rfl

end Verif
