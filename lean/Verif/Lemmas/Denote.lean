import Verif.Lemmas.Nodes
import Verif.Props.Values
/-!
# `objectFromAny` computes the denotation
-/
namespace Verif
open Outcome Spec

theorem getObjectContent_complete_indef {m : Nat} {hb : Bytes} {es : List Bytes} {t : Bytes}
    {h : Header} (H : BerHeader hb h) (hl : h.length = .indefinite)
    (hes : ∀ e ∈ es, Element LooseEoc LooseEoc (m + 1) e) (ht : LooseEoc t) (x : Bytes) :
    getObjectContent (m + 2) h (es.flatten ++ t ++ x) =
      .ok (x, (es.flatten ++ t).take ((es.flatten ++ t).length - 2)) := by
  have hE : Element LooseEoc LooseEoc (m + 2) (hb ++ (es.flatten ++ t)) :=
    .indefinite m hb es t h H hl hes ht
  obtain ⟨hb', hd', body, e1, H', hs⟩ := skip_complete hE
  obtain ⟨rfl, rfl⟩ := berHeader_unique H H' e1
  have e2 : es.flatten ++ t = body := List.append_cancel_left e1
  rw [e2] at *
  rw [getObjectContent_of_skip (hs x)]
  unfold contentOf
  rw [if_pos hl]

/-- `Any::from_ber` recognises exactly framed elements. -/
theorem anyFromBer_framed {i rem : Bytes} {a : Any} :
    anyFromBer i = .ok (rem, a) ↔ ∃ e, i = e ++ rem ∧ Framed 50 e a.header a.data := by
  constructor
  · intro h
    obtain ⟨i1, h1, h2⟩ := anyFromBer_ok h
    obtain ⟨hb, rfl, H⟩ := headerFromBer_iff.1 h1
    cases hl : a.header.length with
    | definite L =>
      obtain ⟨rfl, hlen⟩ := getObjectContent_def_len hl h2
      exact ⟨hb ++ a.data, by simp, .definite hb a.data a.header H (by rw [hl, hlen])⟩
    | indefinite =>
      obtain ⟨es, t, n, hn, rfl, g1, g2, g3⟩ := getObjectContent_indef hl h2
      refine ⟨hb ++ (es.flatten ++ t), by simp, ?_⟩
      rw [g3]
      exact .indefinite n hb es t a.header hn H hl g1 g2
  · rintro ⟨e, rfl, hF⟩
    obtain ⟨h, c⟩ := a
    simp only at hF
    cases hF with
    | definite hb c h H hl => exact anyFromBer_definite H hl rem
    | indefinite m hb es t h hn H hl hes ht =>
      unfold anyFromBer
      rw [List.append_assoc, berHeader_reads H]
      simp only [ok_bind]
      rw [show maxRecursion = m + 2 from hn, getObjectContent_complete_indef H hl hes ht]
      rfl

theorem framed_definite_length {n : Nat} {e c : Bytes} {h : Header} (hF : Framed n e h c) :
    ∀ L, h.length = .definite L → c.length = L := by
  cases hF with
  | definite hb c h H hl => intro L hL; rw [hl] at hL; simpa using hL
  | indefinite m hb es t h hn H hl hes ht => intro L hL; rw [hl] at hL; simp at hL

theorem framed_nonempty {n : Nat} {e c : Bytes} {h : Header} (hF : Framed n e h c) :
    2 ≤ e.length := by
  cases hF with
  | definite hb c h H hl => have := berHeader_nonempty H; simp; omega
  | indefinite m hb es t h hn H hl hes ht => have := berHeader_nonempty H; simp; omega

/-- `collectItems` splits its input in framed elements. -/
theorem collectItems_iff {conv : Any → Res BerObject} {fuel : Nat} {data : Bytes}
    (hf : data.length < fuel) {os : List BerObject}
    (hconv : ∀ a o, conv a = .ok o → o.header = a.header) :
    collectItems conv fuel data = .ok os ↔
      ∃ items : List Item, data = items.flatMap Item.bytes ∧
        os = items.map (fun it => .mk it.header it.value) ∧
        ∀ it ∈ items, Framed 50 it.bytes it.header it.body ∧
          conv ⟨it.header, it.body⟩ = .ok (.mk it.header it.value) := by
  induction fuel generalizing data os with
  | zero => omega
  | succ fuel ih =>
    unfold collectItems
    constructor
    · intro h
      cases data with
      | nil => simp at h; subst h; exact ⟨[], rfl, rfl, by simp⟩
      | cons x xs =>
        simp only at h
        obtain ⟨⟨rem, a⟩, h1, h2⟩ := bind_eq_ok.1 h
        obtain ⟨o1, h3, h4⟩ := bind_eq_ok.1 h2
        obtain ⟨os', h5, h6⟩ := bind_eq_ok.1 h4
        simp only [mapErr_eq_ok] at h1
        simp only [ok.injEq] at h6
        obtain ⟨e, he, hF⟩ := anyFromBer_framed.1 h1
        have hlen := framed_nonempty hF
        have hl2 := congrArg List.length he
        simp only [List.length_append, List.length_cons] at hl2 hf
        obtain ⟨items, g1, g2, g3⟩ := (ih (by simp only; omega)).1 h5
        refine ⟨⟨e, a.header, a.data, o1.content⟩ :: items, ?_, ?_, ?_⟩
        · rw [he, List.flatMap_cons, ← g1]
        · rw [← h6, g2, List.map_cons]
          have := hconv _ _ h3
          simp only at this
          rw [← this]
          simp
        · intro it hit
          rcases List.mem_cons.1 hit with rfl | hit
          · refine ⟨hF, ?_⟩
            have := hconv _ _ h3
            simp only at this ⊢
            rw [← this, BerObject.eta, this]
            exact h3
          · exact g3 it hit
    · rintro ⟨items, rfl, rfl, h⟩
      cases items with
      | nil => rfl
      | cons it items =>
        obtain ⟨hF, hc⟩ := h it (by simp)
        have hlen := framed_nonempty hF
        obtain ⟨x, xs, hx⟩ : ∃ x xs, (it :: items).flatMap Item.bytes = x :: xs := by
          cases hh : (it :: items).flatMap Item.bytes with
          | nil =>
            exfalso
            rw [List.flatMap_cons] at hh
            have := congrArg List.length hh
            simp only [List.length_append, List.length_nil] at this
            omega
          | cons x xs => exact ⟨x, xs, rfl⟩
        rw [hx]
        simp only
        rw [← hx, List.flatMap_cons,
          anyFromBer_framed (rem := items.flatMap Item.bytes) (a := ⟨it.header, it.body⟩) |>.2
            ⟨it.bytes, rfl, hF⟩]
        simp only [mapErr_ok, ok_bind, hc, List.map_cons]
        rw [(ih (data := items.flatMap Item.bytes) (os := items.map fun it => .mk it.header it.value)
          ?_).2 ⟨items, rfl, rfl, fun it' h' => h it' (by simp [h'])⟩]
        · rfl
        · rw [List.flatMap_cons] at hf
          simp only [List.length_append] at hf
          omega

/-! ## Leaves -/

/-- Inverts one row of the tag dispatch. -/
local macro "ukind" : tactic => `(tactic|
  (intro t; constructor
   · intro h; subst h; rfl
   · intro h; unfold uKind at h; split at h <;> simp at h; rfl))

theorem uKind_str {k : StrKind} {t : Nat} : uKind t = .str k ↔ t = strTag k := by
  constructor
  · intro h
    unfold uKind at h
    split at h <;> simp at h <;> subst h <;> rfl
  · rintro rfl; cases k <;> rfl

theorem uKind_other {t : Nat} : uKind t = .other ↔ t ∈ [8, 9, 11, 14, 15, 29] ∨ 30 < t := by
  by_cases h : t ≤ 30
  · have : ∀ t ≤ 30, uKind t = .other ↔ t ∈ [8, 9, 11, 14, 15, 29] ∨ 30 < t := by decide +kernel
    exact this t h
  · refine ⟨fun _ => .inr (by omega), fun _ => ?_⟩
    unfold uKind
    split <;> first | omega | rfl

theorem charsOk_iff (D : Deps) (k : StrKind) (c : Bytes) :
    (validCharset D k c = true ∧ validUtf8 c = true) ↔ (CharsOk D k c ∧ IsUtf8 c) := by
  rw [validUtf8_iff]
  by_cases hu : IsUtf8 c
  · simp only [hu, and_true]
    unfold CharsOk
    split
    · rename_i P hP; exact charset_alphabet hP
    · rename_i hP
      cases k <;> simp [alphabet] at hP <;> simp [validCharset, (validUtf8_iff c).2 hu]
  · simp [hu]

theorem strFromAny_iff (D : Deps) (k : StrKind) (a : Any) (x : Content) :
    strFromAny D k a = .ok x ↔
      a.header.constructed = false ∧ CharsOk D k a.data ∧ IsUtf8 a.data ∧ x = .str k a.data := by
  rw [← and_assoc (a := CharsOk D k a.data), ← charsOk_iff]
  unfold strFromAny
  cases a.header.constructed <;> cases validCharset D k a.data <;> cases validUtf8 a.data <;>
    simp [eq_comm]

theorem liftExcept_eq_ok {ε α : Type} {x : Except ε α} {a : α} :
    liftExcept x = .ok a ↔ x = .ok a := by cases x <;> simp [liftExcept]

/-- Leaves are converted to what they denote. -/
theorem universalContent_leaf_iff (D : Deps) (conv : Any → Res BerObject) (h : Header) (c : Bytes)
    (hcls : h.cls = .universal) (hs : h.tag ≠ 16) (hs' : h.tag ≠ 17)
    (hlen : ∀ L, h.length = .definite L → c.length = L) (x : Content) :
    universalContent D conv ⟨h, c⟩ = .ok x ↔ Leaf D h c x := by
  have other : ∀ {t : Nat}, (t ∈ [8, 9, 11, 14, 15, 29] ∨ 30 < t) ↔ uKind t = .other :=
    uKind_other.symm
  have str : ∀ {k : StrKind} {t : Nat}, t = strTag k ↔ uKind t = .str k := uKind_str.symm
  have t0 : ∀ {t : Nat}, t = 0 ↔ uKind t = .eoc := by ukind
  have t1 : ∀ {t : Nat}, t = 1 ↔ uKind t = .boolean := by ukind
  have t2 : ∀ {t : Nat}, t = 2 ↔ uKind t = .integer := by ukind
  have t3 : ∀ {t : Nat}, t = 3 ↔ uKind t = .bitString := by ukind
  have t4 : ∀ {t : Nat}, t = 4 ↔ uKind t = .octetString := by ukind
  have t5 : ∀ {t : Nat}, t = 5 ↔ uKind t = .null := by ukind
  have t6 : ∀ {t : Nat}, t = 6 ↔ uKind t = .oid := by ukind
  have t10 : ∀ {t : Nat}, t = 10 ↔ uKind t = .enumerated := by ukind
  have t13 : ∀ {t : Nat}, t = 13 ↔ uKind t = .relativeOid := by ukind
  have t23 : ∀ {t : Nat}, t = 23 ↔ uKind t = .utcTime := by ukind
  have t24 : ∀ {t : Nat}, t = 24 ↔ uKind t = .generalizedTime := by ukind
  have t28 : ∀ {t : Nat}, t = 28 ↔ uKind t = .universalString := by ukind
  have t30 : ∀ {t : Nat}, t = 30 ↔ uKind t = .bmpString := by ukind
  have t16 : ∀ {t : Nat}, t = 16 ↔ uKind t = .sequence := by ukind
  have t17 : ∀ {t : Nat}, t = 17 ↔ uKind t = .set := by ukind
  have hL : Leaf D h c x ↔ match x with
      | .endOfContent => uKind h.tag = .eoc
      | .boolean v => uKind h.tag = .boolean ∧ h.length = .definite 1 ∧
          ∃ b, c = [b] ∧ v = decide (b ≠ 0)
      | .integer s => uKind h.tag = .integer ∧ s = c
      | .bitString u s => uKind h.tag = .bitString ∧ h.constructed = false ∧ c = u :: s
      | .octetString s => uKind h.tag = .octetString ∧ s = c
      | .null => uKind h.tag = .null
      | .oid s => uKind h.tag = .oid ∧ s = c
      | .enum n => uKind h.tag = .enumerated ∧ h.constructed = false ∧ n = base256 c ∧ n < 2 ^ 32
      | .relativeOid s => uKind h.tag = .relativeOid ∧ s = c
      | .utcTime t => uKind h.tag = .utcTime ∧ D.utcTime h.constructed c = .ok t
      | .generalizedTime t =>
          uKind h.tag = .generalizedTime ∧ D.generalizedTime h.constructed c = .ok t
      | .universalString s => uKind h.tag = .universalString ∧ h.constructed = false ∧ s = c
      | .bmpString s => uKind h.tag = .bmpString ∧ h.constructed = false ∧ s = c ∧ IsUtf16 c
      | .str k s => uKind h.tag = .str k ∧ h.constructed = false ∧ s = c ∧ CharsOk D k c ∧ IsUtf8 c
      | .unknown a => a = ⟨h, c⟩ ∧ uKind h.tag = .other
      | _ => False := by
    cases x <;> simp only [Leaf, hcls, true_and, ne_eq, not_true_eq_false, false_or, t0, t1, t2, t3,
      t4, t5, t6, t10, t13, t23, t24, t28, t30, str, other]
  rw [hL]
  rw [Ne, t16] at hs
  rw [Ne, t17] at hs'
  unfold universalContent
  simp only
  cases hk : uKind h.tag with
  | sequence => exact absurd hk hs
  | set => exact absurd hk hs'
  | eoc => cases x <;> simp
  | integer => cases x <;> simp <;> exact eq_comm
  | octetString => cases x <;> simp <;> exact eq_comm
  | null => cases x <;> simp
  | oid => cases x <;> simp <;> exact eq_comm
  | relativeOid => cases x <;> simp <;> exact eq_comm
  | other => cases x <;> simp <;> exact eq_comm
  | universalString => cases hc : h.constructed <;> cases x <;> simp <;> exact eq_comm
  | bitString => cases c <;> cases hc : h.constructed <;> cases x <;> simp
  | str k =>
    dsimp only
    simp only [strFromAny_iff]
    cases x <;> simp
    constructor
    · rintro ⟨h1, h2, h3, rfl, rfl⟩; exact ⟨rfl, h1, rfl, h2, h3⟩
    · rintro ⟨rfl, h1, rfl, h2, h3⟩; exact ⟨h1, h2, h3, rfl, rfl⟩
  | utcTime => simp only [map_eq_ok, liftExcept_eq_ok]; cases x <;> simp
  | generalizedTime => simp only [map_eq_ok, liftExcept_eq_ok]; cases x <;> simp
  | enumerated =>
    simp only [map_eq_ok, enumerated_eq]
    by_cases hc : h.constructed = true
    · cases x <;> simp [hc]
    · by_cases hb : base256 c < 2 ^ 32
      · simp only [hc, if_pos hb, Bool.false_eq_true]
        cases x <;> simp
        constructor
        · rintro rfl; exact ⟨rfl, hb⟩
        · rintro ⟨rfl, _⟩; rfl
      · simp only [hc, if_neg hb, Bool.false_eq_true]
        cases x <;> simp
        rintro rfl
        omega
  | boolean =>
    simp only [map_eq_ok, Any.bool]
    by_cases hl : h.length = .definite 1
    · have := hlen 1 hl
      match c, this with
      | [b], _ =>
        have hb1 : (b.toNat != 0) = decide (b ≠ 0) := by
          by_cases hb : b = 0
          · subst hb; rfl
          · have : b.toNat ≠ 0 := fun h => hb (UInt8.toNat_inj.1 h)
            simp [this, hb]
        simp only [hl, if_true, ok.injEq, hb1]
        cases x <;> simp
        rename_i v
        cases v <;> simp
    · simp only [hl, if_false]
      cases x <;> simp
  | bmpString =>
    have h16 := validUtf16_iff c
    by_cases hc : h.constructed = true
    · cases x <;> simp [hc]
    · by_cases hp : c.length % 2 = 0
      · by_cases hv : validUtf16 (utf16Units c) = true
        · have := h16.1 ⟨hp, hv⟩
          cases x <;> simp [hc, hp, hv, this, eq_comm]
        · have : ¬ IsUtf16 c := fun h => hv (h16.2 h).2
          cases x <;> simp [hc, hp, hv, this]
      · have : ¬ IsUtf16 c := fun h => hp (h16.2 h).1
        cases x <;> simp [hc, hp, this]

theorem leaf_not_sequence {D : Deps} {h : Header} {c : Bytes} {x : Content} (hL : Leaf D h c x)
    (hcls : h.cls = .universal) : h.tag ≠ 16 ∧ h.tag ≠ 17 := by
  cases x with
  | str k s =>
    obtain ⟨_, ht, _⟩ := hL
    rw [ht]
    cases k <;> decide
  | unknown a =>
    obtain ⟨_, ht⟩ := hL
    simp [hcls] at ht
    omega
  | _ => simp [Leaf] at hL <;> omega

/-- Conversion computes the denotation. -/
theorem objectFromAny_iff (D : Deps) (d : Nat) (h : Header) (c : Bytes) (x : Content)
    (hlen : ∀ L, h.length = .definite L → c.length = L) :
    objectFromAny D d ⟨h, c⟩ = .ok (.mk h x) ↔ Denotes D d h c x := by
  induction d generalizing h c x with
  | zero => simp only [objectFromAny, reduceCtorEq, false_iff]; intro hd; cases hd
  | succ d ih =>
    have hconv : ∀ a o, objectFromAny D d a = .ok o → o.header = a.header :=
      fun a o => objectFromAny_header
    have items_eq : ∀ items : List Item,
        (∀ it ∈ items, Framed 50 it.bytes it.header it.body ∧
          objectFromAny D d ⟨it.header, it.body⟩ = .ok (.mk it.header it.value)) ↔
        ((∀ it ∈ items, Framed 50 it.bytes it.header it.body) ∧
          ∀ it ∈ items, Denotes D d it.header it.body it.value) := by
      intro items
      constructor
      · intro hh
        exact ⟨fun it hi => (hh it hi).1, fun it hi =>
          (ih _ _ _ (framed_definite_length (hh it hi).1)).1 (hh it hi).2⟩
      · rintro ⟨h1, h2⟩ it hi
        exact ⟨h1 it hi, (ih _ _ _ (framed_definite_length (h1 it hi))).2 (h2 it hi)⟩
    simp only [objectFromAny]
    by_cases hcls : h.cls = .universal
    · simp only [hcls, ne_eq, not_true_eq_false, if_false]
      by_cases hs : h.tag = 16
      · rw [universalContent_sequence (by simp [hs, uKind])]
        constructor
        · intro hh
          obtain ⟨y, h1, h2⟩ := map_eq_ok.1 hh
          obtain ⟨_, h3, h4⟩ := bind_eq_ok.1 h1
          obtain ⟨os, h5, rfl⟩ := map_eq_ok.1 h4
          simp only [BerObject.mk.injEq, true_and] at h2
          subst h2
          obtain ⟨items, h6, rfl, h7⟩ := (collectItems_iff (by simp) hconv).1 h5
          simp only at h6
          subst h6
          obtain ⟨h8, h9⟩ := (items_eq items).1 h7
          refine .sequence d h items hcls hs ?_ h8 h9
          unfold Header.assertConstructed at h3
          split at h3
          · assumption
          · simp at h3
        · intro hd
          cases hd with
          | leaf _ _ _ _ hL => exact absurd hs (leaf_not_sequence hL hcls).1
          | sequence _ _ items _ _ hc h8 h9 =>
            simp only [Header.assertConstructed, hc, if_true, ok_bind]
            rw [(collectItems_iff (by simp) hconv).2 ⟨items, rfl, rfl, (items_eq items).2 ⟨h8, h9⟩⟩]
            rfl
          | set _ _ items _ ht => omega
      · by_cases hs' : h.tag = 17
        · rw [universalContent_set (by simp [hs', uKind])]
          constructor
          · intro hh
            obtain ⟨y, h1, h2⟩ := map_eq_ok.1 hh
            obtain ⟨_, h3, h4⟩ := bind_eq_ok.1 h1
            obtain ⟨os, h5, rfl⟩ := map_eq_ok.1 h4
            simp only [BerObject.mk.injEq, true_and] at h2
            subst h2
            obtain ⟨items, h6, rfl, h7⟩ := (collectItems_iff (by simp) hconv).1 h5
            simp only at h6
            subst h6
            obtain ⟨h8, h9⟩ := (items_eq items).1 h7
            refine .set d h items hcls hs' ?_ h8 h9
            unfold Header.assertConstructed at h3
            split at h3
            · assumption
            · simp at h3
          · intro hd
            cases hd with
            | leaf _ _ _ _ hL => exact absurd hs' (leaf_not_sequence hL hcls).2
            | sequence _ _ items _ ht => omega
            | set _ _ items _ _ hc h8 h9 =>
              simp only [Header.assertConstructed, hc, if_true, ok_bind]
              rw [(collectItems_iff (by simp) hconv).2 ⟨items, rfl, rfl, (items_eq items).2 ⟨h8, h9⟩⟩]
              rfl
        · constructor
          · intro hh
            obtain ⟨y, h1, h2⟩ := map_eq_ok.1 hh
            simp only [BerObject.mk.injEq, true_and] at h2
            subst h2
            exact .leaf d h c y ((universalContent_leaf_iff D _ h c hcls hs hs' hlen y).1 h1)
          · intro hd
            cases hd with
            | leaf _ _ _ _ hL =>
              rw [(universalContent_leaf_iff D _ h c hcls hs hs' hlen x).2 hL]; rfl
            | sequence _ _ items _ ht => omega
            | set _ _ items _ ht => omega
    · simp only [hcls, ne_eq, not_false_eq_true, if_true, ok.injEq, BerObject.mk.injEq, true_and]
      constructor
      · rintro rfl
        exact .leaf d h c _ ⟨rfl, .inl hcls⟩
      · intro hd
        cases hd with
        | leaf _ _ _ _ hL =>
          cases x with
          | unknown a => rw [hL.1]
          | _ => simp [Leaf, hcls] at hL
        | sequence _ _ items h1 => exact absurd h1 hcls
        | set _ _ items h1 => exact absurd h1 hcls

/-- Octets that `parse_ber_any` reads completely are an element. -/
theorem framed_read {e c : Bytes} {h : Header} (H : anyFromBer e = .ok ([], ⟨h, c⟩)) : Framed 50 e h c := by
  obtain ⟨x, h1, h2⟩ := anyFromBer_framed.1 H
  simpa [h1] using h2

end Verif
