import Verif.Props.Faults
/-!
# Property C107: the order of the members of a SET

DER orders the members of a SET by tag and those of a SET OF by their encodings.  The parsers do not look at the order.
-/
namespace Verif
open Outcome Spec

/-! ## Specification -/

namespace Spec

/-- Encodings compared as octet strings, the shorter one padded at its end with zero octets (X.690 11.6). -/
def OctetLe (a b : Bytes) : Prop :=
  base256 (a ++ List.replicate (b.length - a.length) 0) ≤ base256 (b ++ List.replicate (a.length - b.length) 0)

/-- Classes in their order (X.680 8.6). -/
def classRank : Class → Nat
  | .universal => 0
  | .application => 1
  | .contextSpecific => 2
  | .priv => 3

/-- Encodings compared by class and tag number (X.690 10.3, X.680 8.6). -/
def TagLt (a b : Bytes) : Prop :=
  ∃ ia ra ca ka na ib rb cb kb nb, a = ia ++ ra ∧ IdentOctets ia ca ka na ∧ b = ib ++ rb ∧ IdentOctets ib cb kb nb ∧
    (classRank ca < classRank cb ∨ ca = cb ∧ na < nb)

/-- The order of members in DER: that of SET OF or that of SET. -/
def DerOrder (es : List Bytes) : Prop := es.Pairwise OctetLe ∨ es.Pairwise TagLt

/-- Content of a SEQUENCE or SET with the given members. -/
def listContent (tag : Nat) (os : List BerObject) : Content := if tag = 16 then .sequence os else .set os

end Spec

/-! ## Lemmas -/

theorem denotes_list_iff {D : Deps} {d : Nat} {h : Header} {c : Bytes} {x : Content} (hc : h.cls = .universal)
    (ht : h.tag = 16 ∨ h.tag = 17) (hk : h.constructed = true) :
    Denotes D (d + 1) h c x ↔ ∃ ps : List (Bytes × BerObject), c = (ps.map Prod.fst).flatten ∧
      (∀ p ∈ ps, parseBerRecursive D d p.1 = .ok ([], p.2)) ∧ x = listContent h.tag (ps.map Prod.snd) := by
  constructor
  · intro H
    have hit : ∀ items : List Item, (∀ it ∈ items, Framed 50 it.bytes it.header it.body) →
        (∀ it ∈ items, Denotes D d it.header it.body it.value) →
        ∃ ps : List (Bytes × BerObject), items.flatMap Item.bytes = (ps.map Prod.fst).flatten ∧
          (∀ p ∈ ps, parseBerRecursive D d p.1 = .ok ([], p.2)) ∧
          (items.map fun it => BerObject.mk it.header it.value) = ps.map Prod.snd := by
      intro items h1 h2
      refine ⟨items.map fun it => (it.bytes, .mk it.header it.value), ?_, ?_, ?_⟩
      · rw [List.flatMap_def, List.map_map]; rfl
      · intro p hp
        obtain ⟨it, hit, rfl⟩ := List.mem_map.1 hp
        exact parseBerRecursive_iff.2 ⟨it.bytes, it.body, by simp, h1 it hit, h2 it hit⟩
      · rw [List.map_map]; rfl
    cases H with
    | leaf _ _ _ _ hx =>
      exfalso
      cases x with
      | str k s => simp only [Leaf] at hx; rcases ht with ht | ht <;> cases k <;> simp_all
      | _ => first | exact hx.elim | (simp only [Leaf] at hx; rcases ht with ht | ht <;> simp_all)
    | sequence _ _ items _ h16 _ h1 h2 =>
      obtain ⟨ps, e1, e2, e3⟩ := hit items h1 h2
      exact ⟨ps, e1, e2, by rw [listContent, if_pos h16, e3]⟩
    | set _ _ items _ h17 _ h1 h2 =>
      obtain ⟨ps, e1, e2, e3⟩ := hit items h1 h2
      exact ⟨ps, e1, e2, by rw [listContent, if_neg (by omega), e3]⟩
  · rintro ⟨ps, rfl, h1, rfl⟩
    have hit : ∀ ps : List (Bytes × BerObject), (∀ p ∈ ps, parseBerRecursive D d p.1 = .ok ([], p.2)) →
        ∃ items : List Item, (∀ it ∈ items, Framed 50 it.bytes it.header it.body) ∧
          (∀ it ∈ items, Denotes D d it.header it.body it.value) ∧
          items.flatMap Item.bytes = (ps.map Prod.fst).flatten ∧
          (items.map fun it => BerObject.mk it.header it.value) = ps.map Prod.snd := by
      intro ps
      induction ps with
      | nil => intro _; exact ⟨[], by simp, by simp, rfl, rfl⟩
      | cons p ps ih =>
        intro h
        obtain ⟨items, a1, a2, a3, a4⟩ := ih fun q hq => h q (List.mem_cons_of_mem _ hq)
        obtain ⟨e, c, he, hF, hD⟩ := parseBerRecursive_iff.1 (h p List.mem_cons_self)
        rw [List.append_nil] at he
        refine ⟨⟨p.1, p.2.header, c, p.2.content⟩ :: items, ?_, ?_, ?_, ?_⟩
        · simp only [List.forall_mem_cons]; exact ⟨he ▸ hF, a1⟩
        · simp only [List.forall_mem_cons]; exact ⟨hD, a2⟩
        · simp [a3]
        · simp only [List.map_cons, a4]; cases p.2; rfl
    obtain ⟨items, a1, a2, a3, a4⟩ := hit ps h1
    rw [← a3, ← a4]
    rcases ht with ht | ht
    · rw [listContent, if_pos ht]; exact .sequence d h items hc ht hk a1 a2
    · rw [listContent, if_neg (by omega)]; exact .set d h items hc ht hk a1 a2

theorem perm_map_lift {α β : Type} {f : α → β} {es fs : List β} (hp : es.Perm fs) :
    ∀ qs : List α, es = qs.map f → ∃ rs, qs.Perm rs ∧ fs = rs.map f := by
  induction hp with
  | nil => exact fun qs hq => ⟨qs, .refl _, hq⟩
  | cons x _ ih =>
    intro qs hq
    cases qs with
    | nil => simp at hq
    | cons q qs =>
      simp only [List.map_cons, List.cons.injEq] at hq
      obtain ⟨rs, h1, h2⟩ := ih qs hq.2
      exact ⟨q :: rs, h1.cons q, by rw [hq.1, h2]; rfl⟩
  | swap x y l =>
    intro qs hq
    match qs, hq with
    | [], hq => simp at hq
    | [_], hq => simp at hq
    | a :: b :: qs, hq =>
      simp only [List.map_cons, List.cons.injEq] at hq
      exact ⟨b :: a :: qs, .swap b a qs, by simp [hq]⟩
  | trans _ _ ih1 ih2 =>
    intro qs hq
    obtain ⟨rs, h1, h2⟩ := ih1 qs hq
    obtain ⟨ts, h3, h4⟩ := ih2 rs h2
    exact ⟨ts, h1.trans h3, h4⟩

theorem framed_flatten_unique : ∀ {es fs : List Bytes}, (∀ e ∈ es, ∃ h c, Framed 50 e h c) →
    (∀ f ∈ fs, ∃ h c, Framed 50 f h c) → es.flatten = fs.flatten → es = fs
  | [], [], _, _, _ => rfl
  | [], f :: fs, _, h2, e => by
    obtain ⟨h, c, hf⟩ := h2 f (by simp)
    have := framed_nonempty hf
    have := congrArg List.length e
    simp only [List.flatten_nil, List.flatten_cons, List.length_append, List.length_nil] at this
    omega
  | f :: fs, [], h2, _, e => by
    obtain ⟨h, c, hf⟩ := h2 f (by simp)
    have := framed_nonempty hf
    have := congrArg List.length e
    simp only [List.flatten_nil, List.flatten_cons, List.length_append, List.length_nil] at this
    omega
  | e :: es, f :: fs, h1, h2, h => by
    obtain ⟨_, _, he⟩ := h1 e (by simp)
    obtain ⟨_, _, hf⟩ := h2 f (by simp)
    obtain ⟨rfl, h5, _⟩ := framed_unique (r := es.flatten) (r' := fs.flatten) he hf (by simpa using h)
    have h3 : ∀ e ∈ es, ∃ h c, Framed 50 e h c := fun x hx => h1 x (List.mem_cons_of_mem _ hx)
    have h4 : ∀ f ∈ fs, ∃ h c, Framed 50 f h c := fun f hf => h2 f (List.mem_cons_of_mem _ hf)
    rw [framed_flatten_unique h3 h4 h5]

theorem read_framed {D : Deps} {d : Nat} {e : Bytes} {o : BerObject} (h : parseBerRecursive D d e = .ok ([], o)) :
    ∃ h c, Framed 50 e h c := by
  obtain ⟨e', c, he, hF, _⟩ := parseBerRecursive_iff.1 h
  rw [List.append_nil] at he
  exact ⟨_, _, he ▸ hF⟩

theorem members_permuted {D : Deps} {d : Nat} {es fs : List Bytes} {ps : List (Bytes × BerObject)}
    (he : ∀ e ∈ es, ∃ h c, Framed 50 e h c) (hp : es.Perm fs) (h1 : es.flatten = (ps.map Prod.fst).flatten)
    (h2 : ∀ p ∈ ps, parseBerRecursive D d p.1 = .ok ([], p.2)) :
    ∃ rs : List (Bytes × BerObject), es = ps.map Prod.fst ∧ fs = rs.map Prod.fst ∧ ps.Perm rs ∧
      fs.flatten.length = es.flatten.length ∧ ∀ p ∈ rs, parseBerRecursive D d p.1 = .ok ([], p.2) := by
  have e1 : es = ps.map Prod.fst := framed_flatten_unique he (fun f hf => by
    obtain ⟨p, hp, rfl⟩ := List.mem_map.1 hf
    exact read_framed (h2 p hp)) h1
  obtain ⟨rs, h3, h4⟩ := perm_map_lift hp ps e1
  exact ⟨rs, e1, h4, h3, hp.flatten.length_eq.symm, fun p hp => h2 p (h3.mem_iff.2 hp)⟩

/-! ## C107 -/

/-- C107 in full: the members of a SET read by `parse_der` are in the order of DER. -/
def C107Statement : Prop :=
  ∀ (D : Deps) (hb : Bytes) (h : Header) (es : List Bytes) (o : BerObject), DerHeader hb h → h.cls = .universal →
    h.tag = 17 → (∀ e ∈ es, ∃ x, parseDer D e = .ok ([], x)) → parseDer D (hb ++ es.flatten) = .ok ([], o) → DerOrder es

/-- A SEQUENCE or SET of definite length is accepted by `parse_ber` exactly if its contents octets are a list of elements
that `parse_ber` accepts one by one, and its value is the list of their values. -/
theorem C107_ber_members (D : Deps) (d : Nat) (hb : Bytes) (h : Header) (c rest : Bytes) (o : BerObject)
    (H : BerHeader hb h) (hl : h.length = .definite c.length) (hc : h.cls = .universal) (ht : h.tag = 16 ∨ h.tag = 17)
    (hk : h.constructed = true) :
    parseBerRecursive D (d + 1) (hb ++ c ++ rest) = .ok (rest, o) ↔
      ∃ ps : List (Bytes × BerObject), c = (ps.map Prod.fst).flatten ∧
        (∀ p ∈ ps, parseBerRecursive D d p.1 = .ok ([], p.2)) ∧ o = .mk h (listContent h.tag (ps.map Prod.snd)) := by
  have hF : Framed 50 (hb ++ c) h c := .definite hb c h H hl
  constructor
  · intro hp
    obtain ⟨e, c', he, hF', hD⟩ := parseBerRecursive_iff.1 hp
    obtain ⟨_, _, e1, rfl⟩ := framed_unique hF hF' he
    rw [← e1] at hD
    obtain ⟨ps, a1, a2, a3⟩ := (denotes_list_iff hc ht hk).1 hD
    exact ⟨ps, a1, a2, by rw [← a3, e1]; cases o; rfl⟩
  · rintro ⟨ps, a1, a2, rfl⟩
    exact parseBerRecursive_iff.2 ⟨hb ++ c, c, rfl, hF, (denotes_list_iff hc ht hk).2 ⟨ps, a1, a2, rfl⟩⟩

example := (C107_ber_members Tests.D0 49 [0x31, 0x04] (Tests.h .universal true 17 4 [0x31]) [0x05, 0x00, 0x05, 0x00] [9] _
  (berHeader_read rfl) rfl rfl (.inr rfl) rfl).1 rfl

/-- The same for `parse_der`: the members are read with `parse_ber`, and the length is limited. -/
theorem C107_der_members (D : Deps) (hT : TimesKnown D) (d : Nat) (hb : Bytes) (h : Header) (c rest : Bytes)
    (o : BerObject) (H : DerHeader hb h) (hl : h.length = .definite c.length) (hm : c.length ≤ 4294967295)
    (hc : h.cls = .universal) (ht : h.tag = 16 ∨ h.tag = 17) (hk : h.constructed = true) :
    parseDerRecursive D (d + 1) (hb ++ c ++ rest) = .ok (rest, o) ↔
      ∃ ps : List (Bytes × BerObject), c = (ps.map Prod.fst).flatten ∧
        (∀ p ∈ ps, parseBerRecursive D d p.1 = .ok ([], p.2)) ∧ o = .mk h (listContent h.tag (ps.map Prod.snd)) := by
  have hD := fun x => denotes_list_iff (D := D) (d := d) (c := c) (x := x)
    (h := Header.new .universal h.constructed h.tag h.length) rfl ht hk
  rw [C63_parse_der_exact D hT]
  constructor
  · rintro ⟨hb', c', he, H', hl', _, hx⟩
    have hF : Framed 50 (hb ++ c) h c := .definite hb c h H.toBerHeader hl
    have hF' : Framed 50 (hb' ++ c') o.header c' := .definite hb' c' _ H'.toBerHeader hl'
    obtain ⟨_, _, e1, rfl⟩ := framed_unique hF hF' he
    rw [← e1] at hx
    rcases hx with ⟨h1, _⟩ | ⟨_, _, hx⟩
    · exact absurd hc h1
    · obtain ⟨ps, a1, a2, a3⟩ := (hD o.content).1 hx
      exact ⟨ps, a1, a2, by rw [e1] at a3 ⊢; cases o; exact congrArg (BerObject.mk _) a3⟩
  · rintro ⟨ps, a1, a2, rfl⟩
    refine ⟨hb, c, rfl, H, hl, hm, .inr ⟨hc, ⟨?_, ?_, ?_, ?_⟩, (hD _).2 ⟨ps, a1, a2, rfl⟩⟩⟩ <;>
      (intro h1; exfalso; simp only [BerObject.header] at h1; omega)

example := (C107_der_members Tests.D0 (fun _ _ _ => by simp [Tests.D0]) 49 [0x31, 0x04] (Tests.h .universal true 17 4 [0x31])
  [0x05, 0x00, 0x05, 0x00] [9] _ (derHeader_read rfl) rfl (by decide) rfl (.inr rfl) rfl).1 rfl

/-- C107, what holds instead, for `parse_ber`: the order of the members is not looked at.  If a SEQUENCE or SET with
the members `es` is accepted then so is every permutation `fs`, and the children are permuted alike. -/
theorem C107_ber_permuted (D : Deps) (d : Nat) (hb : Bytes) (h : Header) (es fs : List Bytes) (rest : Bytes)
    (o : BerObject) (H : BerHeader hb h) (hl : h.length = .definite es.flatten.length) (hc : h.cls = .universal)
    (ht : h.tag = 16 ∨ h.tag = 17) (hk : h.constructed = true) (he : ∀ e ∈ es, ∃ h c, Framed 50 e h c) (hp : es.Perm fs)
    (ha : parseBerRecursive D (d + 1) (hb ++ es.flatten ++ rest) = .ok (rest, o)) :
    ∃ qs rs : List (Bytes × BerObject), es = qs.map Prod.fst ∧ fs = rs.map Prod.fst ∧ qs.Perm rs ∧
      o = .mk h (listContent h.tag (qs.map Prod.snd)) ∧
      parseBerRecursive D (d + 1) (hb ++ fs.flatten ++ rest) =
        .ok (rest, .mk h (listContent h.tag (rs.map Prod.snd))) := by
  obtain ⟨qs, a1, a2, rfl⟩ := (C107_ber_members D d hb h _ rest o H hl hc ht hk).1 ha
  obtain ⟨rs, b1, b2, b3, b4, b5⟩ := members_permuted he hp a1 a2
  exact ⟨qs, rs, b1, b2, b3, rfl, (C107_ber_members D d hb h _ rest _ H (by rw [hl, b4]) hc ht hk).2
    ⟨rs, by rw [b2], b5, rfl⟩⟩

example := C107_ber_permuted Tests.D0 49 [0x31, 0x05] (Tests.h .universal true 17 5 [0x31]) [[0x05, 0x00], [0x02, 0x01, 0x05]]
  [[0x02, 0x01, 0x05], [0x05, 0x00]] [9] _ (berHeader_read rfl) rfl rfl (.inr rfl) rfl
  (by
    simp only [List.forall_mem_cons, List.not_mem_nil, false_imp_iff, implies_true, and_true]
    exact ⟨⟨_, _, framed_read rfl⟩, _, _, framed_read rfl⟩)
  (.swap _ _ _) rfl

/-- C107, what holds instead, for `parse_der`.  Missing: the order of DER, which is not checked. -/
theorem C107_der_permuted_partial (D : Deps) (hT : TimesKnown D) (d : Nat) (hb : Bytes) (h : Header) (es fs : List Bytes)
    (rest : Bytes) (o : BerObject) (H : DerHeader hb h) (hl : h.length = .definite es.flatten.length)
    (hm : es.flatten.length ≤ 4294967295) (hc : h.cls = .universal) (ht : h.tag = 16 ∨ h.tag = 17)
    (hk : h.constructed = true) (he : ∀ e ∈ es, ∃ h c, Framed 50 e h c) (hp : es.Perm fs)
    (ha : parseDerRecursive D (d + 1) (hb ++ es.flatten ++ rest) = .ok (rest, o)) :
    ∃ qs rs : List (Bytes × BerObject), es = qs.map Prod.fst ∧ fs = rs.map Prod.fst ∧ qs.Perm rs ∧
      o = .mk h (listContent h.tag (qs.map Prod.snd)) ∧
      parseDerRecursive D (d + 1) (hb ++ fs.flatten ++ rest) =
        .ok (rest, .mk h (listContent h.tag (rs.map Prod.snd))) := by
  obtain ⟨qs, a1, a2, rfl⟩ := (C107_der_members D hT d hb h _ rest o H hl hm hc ht hk).1 ha
  obtain ⟨rs, b1, b2, b3, b4, b5⟩ := members_permuted he hp a1 a2
  exact ⟨qs, rs, b1, b2, b3, rfl, (C107_der_members D hT d hb h _ rest _ H (by rw [hl, b4]) (by omega) hc ht hk).2
    ⟨rs, by rw [b2], b5, rfl⟩⟩

example := C107_der_permuted_partial Tests.D0 (fun _ _ _ => by simp [Tests.D0]) 49 [0x31, 0x05] (Tests.h .universal true 17 5 [0x31])
  [[0x05, 0x00], [0x02, 0x01, 0x05]] [[0x02, 0x01, 0x05], [0x05, 0x00]] [9] _ (derHeader_read rfl) rfl (by decide) rfl (.inr rfl) rfl
  (by
    simp only [List.forall_mem_cons, List.not_mem_nil, false_imp_iff, implies_true, and_true]
    exact ⟨⟨_, _, framed_read rfl⟩, _, _, framed_read rfl⟩)
  (.swap _ _ _) rfl

/-- The two members in the wrong order: INTEGER 2, BOOLEAN false. -/
theorem C107_not_ordered : ¬ DerOrder [[0x02, 0x01, 0x02], [0x01, 0x01, 0x00]] := by
  rintro (h | h)
  · have := List.rel_of_pairwise_cons h (List.mem_singleton.2 rfl)
    simp [OctetLe, base256] at this
  · obtain ⟨ia, ra, ca, ka, na, ib, rb, cb, kb, nb, e1, h1, e2, h2, h3⟩ :=
      List.rel_of_pairwise_cons h (List.mem_singleton.2 rfl)
    obtain ⟨_, rfl, _, rfl, _⟩ := identOctets_unique (r := [0x01, 0x02]) (.low 0x02 (by decide)) h1 e1
    obtain ⟨_, rfl, _, rfl, _⟩ := identOctets_unique (r := [0x01, 0x00]) (.low 0x01 (by decide)) h2 e2
    revert h3
    decide

/-- C107 is false. -/
theorem C107_full_counterexample : ¬ C107Statement := by
  intro h
  refine C107_not_ordered (h Tests.D0 [0x31, 0x06] ⟨.universal, true, 17, .definite 6, some [0x31]⟩ _ _
    ⟨⟨⟨[0x31], [0x06], 17, rfl, .low 0x31 (by decide), .short 0x06 (by decide), rfl, by decide, rfl⟩, ?_, ?_⟩, ?_⟩ rfl rfl
    ?_ rfl)
  · intro n hn
    simp only [Length.definite.injEq] at hn
    omega
  · exact fun h => by cases h
  · exact fun h => by cases h
  · simp only [List.forall_mem_cons]
    exact ⟨⟨_, rfl⟩, ⟨_, rfl⟩, by simp⟩

/-- The hypotheses of the theorems on permutations can be met. -/
example (D : Deps) : ∃ o, parseDer D ([0x31, 0x06] ++ [[0x02, 0x01, 0x02], [0x01, 0x01, 0x00]].flatten ++ [0x07]) = .ok ([0x07], o) :=
  ⟨_, rfl⟩

end Verif
