import Verif.Props.Limits
import Verif.Lemmas.Returned
import Verif.Props.Api
/-!
# Length forms at every level: C101
-/
namespace Verif
open Outcome Spec

namespace Spec

/-- `FrameOf h es e`: `e` is header octets for `h` and the elements `es`, in definite form or in indefinite form
with end-of-contents octets.  In the indefinite form no element may look like end-of-contents (C09), and the
nesting of indefinite lengths is limited (C14). -/
inductive FrameOf (h : Header) (es : List Bytes) : Bytes → Prop
  | definite (hb : Bytes) : BerHeader hb h → h.length = .definite es.flatten.length → FrameOf h es (hb ++ es.flatten)
  | indefinite (hb : Bytes) : BerHeader hb h → h.length = .indefinite →
      (∀ e ∈ es, Element LooseEoc LooseEoc 49 e) → FrameOf h es (hb ++ (es.flatten ++ [0, 0]))

/-- `Reform e e'`: the elements `e` and `e'` differ only in length octets, at any level of SEQUENCE and SET: the
number of length octets (8.1.3.5) and, for SEQUENCE and SET, the form of the length (8.1.3.2) are the sender's
option.  Contents that are not SEQUENCE or SET are the same octets. -/
inductive Reform : Bytes → Bytes → Prop
  | same (e : Bytes) (h : Header) (c : Bytes) : Framed 50 e h c → Reform e e
  | leaf (hb hb' c : Bytes) (h : Header) : BerHeader hb h → BerHeader hb' h → h.length = .definite c.length →
      Reform (hb ++ c) (hb' ++ c)
  | list (h h' : Header) (es : List (Bytes × Bytes)) (e e' : Bytes) : h.cls = .universal → h.tag = 16 ∨ h.tag = 17 →
      h'.cls = h.cls → h'.constructed = h.constructed → h'.tag = h.tag → h'.rawTag = h.rawTag →
      FrameOf h (es.map (·.1)) e → FrameOf h' (es.map (·.2)) e' → (∀ p ∈ es, Reform p.1 p.2) → Reform e e'

mutual
/-- The object without the lengths in the headers of the tree. -/
def dropLengths : BerObject → BerObject
  | .mk h c => .mk { h with length := .definite 0 } (dropLengthsC c)
/-- The same for contents. -/
def dropLengthsC : Content → Content
  | .sequence l => .sequence (dropLengthsL l)
  | .set l => .set (dropLengthsL l)
  | c => c
/-- The same for lists. -/
def dropLengthsL : List BerObject → List BerObject
  | [] => []
  | o :: os => dropLengths o :: dropLengthsL os
end

end Spec

theorem frameOf_framed {h : Header} {es : List Bytes} {e : Bytes} (H : FrameOf h es e) :
    Framed 50 e h es.flatten := by
  cases H with
  | definite hb hh hl => exact .definite hb _ h hh hl
  | indefinite hb hh hl hes =>
    have := Framed.indefinite (n := 50) 48 hb es [0, 0] h rfl hh hl
      hes (looseEoc_of_isEoc _ rfl)
    have h2 : (es.flatten ++ [0, 0]).length - 2 = es.flatten.length := by simp
    rwa [h2, List.take_left] at this

theorem reform_symm {e e' : Bytes} (H : Reform e e') : Reform e' e := by
  induction H with
  | same e h c hF => exact .same e h c hF
  | leaf hb hb' c h h1 h2 h3 => exact .leaf hb' hb c h h2 h1 h3
  | list h h' es e e' h1 h2 h3 h4 h5 h6 h7 h8 _ ih =>
    refine .list h' h (es.map fun p => (p.2, p.1)) e' e (h3.trans h1) (by rw [h5]; exact h2) h3.symm h4.symm h5.symm
      h6.symm ?_ ?_ ?_
    · simpa [List.map_map, Function.comp_def] using h8
    · simpa [List.map_map, Function.comp_def] using h7
    · intro p hp
      obtain ⟨q, hq, rfl⟩ := List.mem_map.1 hp
      exact ih q hq

theorem reform_framed {e e' : Bytes} (H : Reform e e') : ∃ h c, Framed 50 e h c := by
  cases H with
  | same _ h c hF => exact ⟨h, c, hF⟩
  | leaf hb hb' c h h1 h2 h3 => exact ⟨h, c, .definite hb c h h1 h3⟩
  | list h h' es _ _ h1 h2 h3 h4 h5 h6 h7 h8 h9 => exact ⟨h, _, frameOf_framed h7⟩

theorem framed_unique {e e' r r' c c' : Bytes} {h h' : Header} (H : Framed 50 e h c) (H' : Framed 50 e' h' c')
    (he : e ++ r = e' ++ r') : e = e' ∧ r = r' ∧ h = h' ∧ c = c' := by
  have h1 := (anyFromBer_framed (i := e ++ r) (rem := r) (a := ⟨h, c⟩)).2 ⟨e, rfl, H⟩
  have h2 := (anyFromBer_framed (i := e ++ r) (rem := r') (a := ⟨h', c'⟩)).2 ⟨e', he, H'⟩
  rw [h1] at h2
  simp only [ok.injEq, Prod.mk.injEq, Any.mk.injEq] at h2
  obtain ⟨rfl, rfl, rfl⟩ := h2
  exact ⟨List.append_cancel_right he, rfl, rfl, rfl⟩

theorem framed_list_unique : ∀ (es : List Bytes) (items : List Item), (∀ e ∈ es, ∃ h c, Framed 50 e h c) →
    (∀ it ∈ items, Framed 50 it.bytes it.header it.body) → es.flatten = items.flatMap Item.bytes →
    es = items.map Item.bytes
  | [], [], _, _, _ => rfl
  | [], it :: items, _, h2, h => by
    have := framed_nonempty (h2 it List.mem_cons_self)
    have h := congrArg List.length h
    simp only [List.flatten_nil, List.flatMap_cons, List.length_append, List.length_nil] at h
    omega
  | e :: es, [], h1, _, h => by
    obtain ⟨hd, c, hF⟩ := h1 e List.mem_cons_self
    have := framed_nonempty hF
    have h := congrArg List.length h
    simp only [List.flatten_cons, List.flatMap_nil, List.length_append, List.length_nil] at h
    omega
  | e :: es, it :: items, h1, h2, h => by
    obtain ⟨hd, c, hF⟩ := h1 e List.mem_cons_self
    simp only [List.flatten_cons, List.flatMap_cons] at h
    obtain ⟨rfl, h3, -, -⟩ := framed_unique hF (h2 it List.mem_cons_self) h
    rw [List.map_cons, framed_list_unique es items (fun x hx => h1 x (List.mem_cons_of_mem _ hx))
      (fun x hx => h2 x (List.mem_cons_of_mem _ hx)) h3]

theorem reform_items {D : Deps} {d : Nat} : ∀ (es : List (Bytes × Bytes)) (items : List Item),
    es.map (·.1) = items.map Item.bytes →
    (∀ it ∈ items, Framed 50 it.bytes it.header it.body) →
    (∀ it ∈ items, Denotes D d it.header it.body it.value) →
    (∀ p ∈ es, ∀ d h c x, Framed 50 p.1 h c → Denotes D d h c x → ∃ h' c' x', Framed 50 p.2 h' c' ∧
      Denotes D d h' c' x' ∧ dropLengths (.mk h' x') = dropLengths (.mk h x)) →
    ∃ items' : List Item, es.map (·.2) = items'.map Item.bytes ∧
      (∀ it ∈ items', Framed 50 it.bytes it.header it.body) ∧
      (∀ it ∈ items', Denotes D d it.header it.body it.value) ∧
      dropLengthsL (items'.map fun it => .mk it.header it.value) =
        dropLengthsL (items.map fun it => .mk it.header it.value)
  | [], items, h, _, _, _ => by
    cases items with
    | nil => exact ⟨[], rfl, by simp, by simp, rfl⟩
    | cons it items => simp at h
  | p :: es, [], h, _, _, _ => by simp at h
  | p :: es, it :: items, h, h1, h2, ih => by
    simp only [List.map_cons, List.cons.injEq] at h
    obtain ⟨items', g1, g2, g3, g4⟩ := reform_items es items h.2 (fun x hx => h1 x (List.mem_cons_of_mem _ hx))
      (fun x hx => h2 x (List.mem_cons_of_mem _ hx)) (fun q hq => ih q (List.mem_cons_of_mem _ hq))
    obtain ⟨h', c', x', k1, k2, k3⟩ := ih p List.mem_cons_self d it.header it.body it.value
      (by rw [h.1]; exact h1 it List.mem_cons_self) (h2 it List.mem_cons_self)
    refine ⟨⟨p.2, h', c', x'⟩ :: items', by rw [List.map_cons, List.map_cons, g1], ?_, ?_, ?_⟩
    · intro x hx
      rcases List.mem_cons.1 hx with rfl | hx
      · exact k1
      · exact g2 x hx
    · intro x hx
      rcases List.mem_cons.1 hx with rfl | hx
      · exact k2
      · exact g3 x hx
    · simp only [List.map_cons, dropLengthsL]
      rw [g4, k3]

theorem reform_denotes {D : Deps} {e e' : Bytes} (H : Reform e e') : ∀ d h c x, Framed 50 e h c →
    Denotes D d h c x → ∃ h' c' x', Framed 50 e' h' c' ∧ Denotes D d h' c' x' ∧
      dropLengths (.mk h' x') = dropLengths (.mk h x) := by
  induction H with
  | same e hd cd hF => intro d h c x h1 h2; exact ⟨h, c, x, h1, h2, rfl⟩
  | leaf hb hb' cd hd h1 h2 h3 =>
    intro d h c x hF hD
    obtain ⟨-, -, rfl, rfl⟩ := framed_unique (r := []) (r' := []) hF (.definite hb cd hd h1 h3) rfl
    exact ⟨_, _, x, .definite hb' _ _ h2 h3, hD, rfl⟩
  | list hd hd' es e e' h1 h2 h3 h4 h5 h6 h7 h8 hR ih =>
    intro d h c x hF hD
    obtain ⟨-, -, rfl, rfl⟩ := framed_unique (r := []) (r' := []) hF (frameOf_framed h7) rfl
    have hes : ∀ e ∈ es.map (·.1), ∃ h c, Framed 50 e h c := by
      intro x hx
      obtain ⟨p, hp, rfl⟩ := List.mem_map.1 hx
      exact reform_framed (hR p hp)
    have hdr : { hd' with length := .definite 0 } = ({ h with length := .definite 0 } : Header) := by
      rw [h3, h4, h5, h6]
    generalize hc : (es.map (·.1)).flatten = c at hD
    cases hD with
    | leaf d _ _ _ hL =>
      exfalso
      have ht : ∀ n, h.tag = n → n ≠ 16 → n ≠ 17 → False := fun n hn a b => by
        rcases h2 with h2 | h2 <;> rw [h2] at hn <;> simp_all
      cases x <;> simp only [Leaf] at hL <;> try exact hL
      case unknown a =>
        rcases hL.2 with k | k | k
        · exact k h1
        · rcases h2 with h2 | h2 <;> rw [h2] at k <;> simp at k
        · rcases h2 with h2 | h2 <;> rw [h2] at k <;> simp at k
      case str k s => exact ht _ hL.2.1 (by cases k <;> decide) (by cases k <;> decide)
      all_goals first | exact ht _ hL.2 (by decide) (by decide) | exact ht _ hL.2.1 (by decide) (by decide)
    | sequence d _ items k1 k2 k3 k4 k5 =>
      obtain ⟨items', g1, g2, g3, g4⟩ := reform_items es items (framed_list_unique _ _ hes k4 hc) k4 k5 ih
      have h8 := frameOf_framed h8
      rw [g1, ← List.flatMap_def] at h8
      refine ⟨hd', _, _, h8, .sequence d hd' items' (h3.trans k1) (h5.trans k2) (h4.trans k3) g2 g3, ?_⟩
      simp only [dropLengths, dropLengthsC]
      rw [g4, hdr]
    | set d _ items k1 k2 k3 k4 k5 =>
      obtain ⟨items', g1, g2, g3, g4⟩ := reform_items es items (framed_list_unique _ _ hes k4 hc) k4 k5 ih
      have h8 := frameOf_framed h8
      rw [g1, ← List.flatMap_def] at h8
      refine ⟨hd', _, _, h8, .set d hd' items' (h3.trans k1) (h5.trans k2) (h4.trans k3) g2 g3, ?_⟩
      simp only [dropLengths, dropLengthsC]
      rw [g4, hdr]

/-- An INTEGER with the length in one octet and in two. -/
theorem reform_small : Reform [0x02, 0x01, 0x07] [0x02, 0x81, 0x01, 0x07] :=
  .leaf [0x02, 0x01] [0x02, 0x81, 0x01] [0x07] _ (berHeader_read rfl) (berHeader_read rfl) rfl

/-- C101: elements that differ only in length octets, at any level, are read alike: both are refused, or both are
accepted with the same remainder and trees that differ only in the lengths of headers. -/
theorem C101_lengths (D : Deps) (d : Nat) (e e' rest : Bytes) (o : BerObject) (H : Reform e e')
    (h : parseBerRecursive D d (e ++ rest) = .ok (rest, o)) :
    ∃ o', parseBerRecursive D d (e' ++ rest) = .ok (rest, o') ∧ dropLengths o' = dropLengths o := by
  obtain ⟨e1, c, h1, h2, h3⟩ := parseBerRecursive_iff.1 h
  obtain rfl := List.append_cancel_right h1
  obtain ⟨hd, x⟩ := o
  obtain ⟨h', c', x', k1, k2, k3⟩ := reform_denotes H d hd c x h2 h3
  exact ⟨.mk h' x', parseBerRecursive_iff.2 ⟨e', c', rfl, k1, k2⟩, k3⟩

example := C101_lengths Tests.D0 50 _ _ [9] _ reform_small rfl

/-- C101: the element is all that is consumed, whatever follows. -/
theorem C101_extent (D : Deps) (d : Nat) (e e' rest rem : Bytes) (o : BerObject) (H : Reform e e')
    (h : parseBerRecursive D d (e ++ rest) = .ok (rem, o)) : rem = rest := by
  obtain ⟨e1, c, h1, h2, h3⟩ := parseBerRecursive_iff.1 h
  obtain ⟨hd, c1, hF⟩ := reform_framed H
  exact (framed_unique hF h2 h1).2.1.symm

example := C101_extent Tests.D0 50 _ _ [9] [9] _ reform_small rfl

/-- C101: the choice of lengths is symmetric, so one form is accepted exactly when the other is. -/
theorem C101_accepted_iff (D : Deps) (d : Nat) (e e' rest : Bytes) (H : Reform e e') :
    (∃ r, parseBerRecursive D d (e ++ rest) = .ok r) ↔ ∃ r, parseBerRecursive D d (e' ++ rest) = .ok r := by
  have gen : ∀ e e', Reform e e' → (∃ r, parseBerRecursive D d (e ++ rest) = .ok r) →
      ∃ r, parseBerRecursive D d (e' ++ rest) = .ok r := by
    rintro e e' H ⟨⟨rem, o⟩, h⟩
    obtain rfl := C101_extent D d e e' rest rem o H h
    obtain ⟨o', h', -⟩ := C101_lengths D d e e' rem o H h
    exact ⟨_, h'⟩
  exact ⟨gen e e' H, gen e' e (reform_symm H)⟩

mutual
theorem rustEq_of_dropLengths : ∀ o o' : BerObject, dropLengths o = dropLengths o' → o.rustEq o' = true
  | .mk h c, .mk h' c', e => by
    simp only [dropLengths, BerObject.mk.injEq, Header.mk.injEq] at e
    rw [BerObject.rustEq, rustEq_of_dropLengthsC c c' e.2, Bool.and_true, Header.rustEq_iff]
    obtain ⟨⟨h1, h2, h3, -, h5⟩, -⟩ := e
    refine ⟨by simp [eraseH, h1, h2, h3], fun r r' k k' => ?_⟩
    rw [k, k'] at h5
    exact Option.some.inj h5
theorem rustEq_of_dropLengthsC : ∀ c c' : Content, dropLengthsC c = dropLengthsC c' → c.rustEq c' = true
  | .sequence l, c', e => by
    cases c' <;> simp only [dropLengthsC, reduceCtorEq, Content.sequence.injEq] at e
    rw [Content.rustEq]; exact rustEq_of_dropLengthsL l _ e
  | .set l, c', e => by
    cases c' <;> simp only [dropLengthsC, reduceCtorEq, Content.set.injEq] at e
    rw [Content.rustEq]; exact rustEq_of_dropLengthsL l _ e
  | .endOfContent, c', e | .null, c', e | .optionalNone, c', e | .boolean _, c', e | .integer _, c', e
  | .octetString _, c', e | .enum _, c', e | .oid _, c', e | .relativeOid _, c', e | .bmpString _, c', e
  | .universalString _, c', e | .utcTime _, c', e | .generalizedTime _, c', e | .bitString _ _, c', e
  | .str _ _, c', e | .optionalSome _, c', e | .unknown _, c', e | .tagged _ _ _, c', e => by
    cases c' <;> simp only [dropLengthsC, reduceCtorEq] at e <;>
      first | (rw [e]; exact rustEq_refl_content _) | exact rustEq_refl_content _
theorem rustEq_of_dropLengthsL : ∀ l l' : List BerObject, dropLengthsL l = dropLengthsL l' → listRustEq l l' = true
  | [], l', e => by cases l' <;> simp_all [dropLengthsL, listRustEq]
  | o :: os, l', e => by
    cases l' with
    | nil => simp [dropLengthsL] at e
    | cons o' os' =>
      simp only [dropLengthsL, List.cons.injEq] at e
      rw [listRustEq, rustEq_of_dropLengths o o' e.1, rustEq_of_dropLengthsL os os' e.2]
      rfl
end

/-- C101: `parse_ber` on two such elements gives objects that are equal for Rust. -/
theorem C101_rust_equal (D : Deps) (e e' rest : Bytes) (o o' : BerObject) (H : Reform e e')
    (h : parseBer D (e ++ rest) = .ok (rest, o)) (h' : parseBer D (e' ++ rest) = .ok (rest, o')) :
    o'.rustEq o = true := by
  obtain ⟨o2, h2, h3⟩ := C101_lengths D 50 e e' rest o H h
  rw [show parseBerRecursive D 50 (e' ++ rest) = parseBer D (e' ++ rest) from rfl, h'] at h2
  cases h2
  exact rustEq_of_dropLengths _ _ h3

/-- An indefinite SEQUENCE holding a definite one, and a definite one (long form) holding an indefinite one, around
an INTEGER with a short and a long length. -/
example : Reform [0x30, 0x80, 0x30, 0x03, 0x02, 0x01, 0x07, 0x00, 0x00]
      [0x30, 0x81, 0x08, 0x30, 0x80, 0x02, 0x81, 0x01, 0x07, 0x00, 0x00] ∧
    (parseBer Tests.D0 [0x30, 0x80, 0x30, 0x03, 0x02, 0x01, 0x07, 0x00, 0x00]).isOk = true := by
  have hdr : ∀ b k, b.toNat % 32 < 31 → k < 128 → BerHeader [b, 0x81, UInt8.ofNat k]
      ⟨classOf b, constructedBit b, b.toNat % 32, .definite k, some [b]⟩ := by
    intro b k hb hk
    have hL := LenOctets.long 0x81 [UInt8.ofNat k] (by decide) (by decide) rfl
    have : base256 [UInt8.ofNat k] = k := by simp [base256]; omega
    rw [this] at hL
    refine ⟨⟨[b], [0x81, UInt8.ofNat k], b.toNat % 32, rfl, IdentOctets.low b (by omega), hL, ?_, by simp, rfl⟩, ?_, by simp⟩
    · simp only; rw [Nat.mod_eq_of_lt (a := b.toNat % 32)]; omega
    · intro n hn; simp at hn; omega
  have i1 := berHeader_short 0x02 0x01 (by decide) (by decide)
  have i2 := hdr 0x02 1 (by decide) (by decide)
  have s1 : BerHeader [0x30, 0x03] ⟨.universal, true, 16, .definite 3, some [0x30]⟩ :=
    berHeader_short 0x30 0x03 (by decide) (by decide)
  have s2 : BerHeader [0x30, 0x81, 0x08] ⟨.universal, true, 16, .definite 8, some [0x30]⟩ :=
    hdr 0x30 8 (by decide) (by decide)
  have e2 : Element LooseEoc LooseEoc 49 [0x02, 0x81, 0x01, 0x07] :=
    .definite 48 1 [0x02, 0x81, 0x01] [0x07] _ i2 rfl rfl (fun h => by
      have := (looseEoc_iff i2 rfl (c := [0x07]) rfl).1 h; omega)
  have e1 : Element LooseEoc LooseEoc 49 [0x30, 0x03, 0x02, 0x01, 0x07] :=
    .definite 48 3 [0x30, 0x03] [0x02, 0x01, 0x07] _ s1 rfl rfl (fun h => by
      have := (looseEoc_iff s1 rfl (c := [0x02, 0x01, 0x07]) rfl).1 h; simp at this)
  have r0 : Reform [0x02, 0x01, 0x07] [0x02, 0x81, 0x01, 0x07] :=
    .leaf [0x02, 0x01] [0x02, 0x81, 0x01] [0x07] _ i1 i2 rfl
  have r1 : Reform [0x30, 0x03, 0x02, 0x01, 0x07] [0x30, 0x80, 0x02, 0x81, 0x01, 0x07, 0x00, 0x00] :=
    .list ⟨.universal, true, 16, .definite 3, some [0x30]⟩ ⟨.universal, true, 16, .indefinite, some [0x30]⟩
      [([0x02, 0x01, 0x07], [0x02, 0x81, 0x01, 0x07])] _ _ rfl (.inl rfl) rfl rfl rfl rfl
      (.definite [0x30, 0x03] s1 rfl)
      (.indefinite [0x30, 0x80] berHeader_seqIndef rfl (by simpa using e2)) (by simpa using r0)
  refine ⟨.list ⟨.universal, true, 16, .indefinite, some [0x30]⟩ ⟨.universal, true, 16, .definite 8, some [0x30]⟩
    [([0x30, 0x03, 0x02, 0x01, 0x07], [0x30, 0x80, 0x02, 0x81, 0x01, 0x07, 0x00, 0x00])] _ _ rfl
    (.inl rfl) rfl rfl rfl rfl (.indefinite [0x30, 0x80] berHeader_seqIndef rfl (by simpa using e1))
    (.definite [0x30, 0x81, 0x08] s2 rfl) (by simpa using r1), rfl⟩

end Verif
