import Verif.Lemmas.Encode
/-!
# Serialization of trees
-/
namespace Verif
open Outcome Spec

theorem pow64 : (2 : Nat) ^ 64 = 256 ^ 8 := by decide

theorem toBeBytes_mod (n v : Nat) (m : Nat) (h : n ≤ m) : toBeBytes n (v % 256 ^ m) = toBeBytes n v := by
  induction n with
  | zero => rfl
  | succ n ih =>
    simp only [toBeBytes, ih (by omega), List.cons.injEq, and_true]
    apply UInt8.toNat_inj.1
    simp only [UInt8.toNat_ofNat']
    have h1 : v % 256 ^ m % 256 ^ (n + 1) = v % 256 ^ (n + 1) :=
      Nat.mod_mod_of_dvd _ (Nat.pow_dvd_pow 256 h)
    have h2 : ∀ w : Nat, w / 256 ^ n % 256 = w % 256 ^ (n + 1) / 256 ^ n := by
      intro w
      rw [Nat.pow_succ, Nat.mod_mul_right_div_self]
    rw [show (2 : Nat) ^ 8 = 256 from rfl, h2, h2, h1]

/-! ## Exactness -/

mutual
theorem encodeObject_iff (D : Deps) : ∀ (o : BerObject) (e : Bytes), e.length < 2 ^ 64 →
    (encodeObject D o = .ok e ↔ Encodes D o e)
  | .mk h c, e, he => by
    rw [encodeObject, Encodes]
    constructor
    · intro H
      obtain ⟨v, h1, h2⟩ := bind_eq_ok.1 H
      obtain ⟨vh, h3, h4⟩ := bind_eq_ok.1 h2
      simp only [ok.injEq] at h4
      subst h4
      rw [encodeHeader_ok] at h3
      obtain ⟨ht, rfl⟩ := h3
      have hv : v.length < 2 ^ 64 := by rw [List.length_append] at he; omega
      refine ⟨_, _, v, rfl, identOctet_iff.2 ⟨ht, rfl⟩,
        (minLen_iff (by rw [← pow64]; exact hv)).2 rfl, (encodeContent_iff D c v hv).1 h1⟩
    · rintro ⟨b, len, v, rfl, h1, h2, h3⟩
      have hv : v.length < 2 ^ 64 := by
        simp only [List.length_cons, List.length_append] at he; omega
      obtain ⟨ht, rfl⟩ := identOctet_iff.1 h1
      rw [(minLen_iff (by rw [← pow64]; exact hv)).1 h2, (encodeContent_iff D c v hv).2 h3]
      simp only [ok_bind]
      rw [encodeHeader_ok.2 ⟨show ({ h with length := .definite v.length } : Header).tag ≤ 30 from ht,
        rfl⟩]
      rfl
theorem encodeContent_iff (D : Deps) : ∀ (c : Content) (v : Bytes), v.length < 2 ^ 64 →
    (encodeContent D c = .ok v ↔ EncodesC D c v)
  | .endOfContent, v, _ => by simp [encodeContent, EncodesC, eq_comm]
  | .boolean b, v, _ => by simp [encodeContent, EncodesC, eq_comm]
  | .integer s, v, _ => by simp [encodeContent, EncodesC, eq_comm]
  | .bitString u s, v, _ => by simp [encodeContent, EncodesC, eq_comm]
  | .octetString s, v, _ => by simp [encodeContent, EncodesC, eq_comm]
  | .null, v, _ => by simp [encodeContent, EncodesC, eq_comm]
  | .enum n, v, _ => by
    rw [encodeContent, EncodesC, pow64, minOctets_iff (Nat.mod_lt _ (by decide)),
      toBeBytes_mod _ _ _ (Nat.le_refl 8)]
    simp [eq_comm]
  | .oid s, v, _ => by simp [encodeContent, EncodesC, eq_comm]
  | .relativeOid s, v, _ => by simp [encodeContent, EncodesC, eq_comm]
  | .utcTime t, v, _ => by simp [encodeContent, EncodesC, eq_comm]
  | .generalizedTime t, v, _ => by simp [encodeContent, EncodesC, eq_comm]
  | .str k s, v, _ => by simp [encodeContent, EncodesC, eq_comm]
  | .bmpString s, v, _ => by simp [encodeContent, EncodesC, eq_comm]
  | .universalString s, v, _ => by simp [encodeContent, EncodesC, eq_comm]
  | .sequence l, v, hv => by rw [encodeContent, EncodesC]; exact encodeList_iff D l v hv
  | .set l, v, hv => by rw [encodeContent, EncodesC]; exact encodeList_iff D l v hv
  | .optionalSome o, v, hv => by rw [encodeContent, EncodesC]; exact encodeInner_iff D o v hv
  | .optionalNone, v, _ => by simp [encodeContent, EncodesC, eq_comm]
  | .tagged _ _ o, v, hv => by rw [encodeContent, EncodesC]; exact encodeObject_iff D o v hv
  | .unknown a, v, _ => by simp [encodeContent, EncodesC, eq_comm]
theorem encodeInner_iff (D : Deps) : ∀ (o : BerObject) (v : Bytes), v.length < 2 ^ 64 →
    (encodeInnerContent D o = .ok v ↔ EncodesInner D o v)
  | .mk _ c, v, hv => by rw [encodeInnerContent, EncodesInner]; exact encodeContent_iff D c v hv
theorem encodeList_iff (D : Deps) : ∀ (l : List BerObject) (v : Bytes), v.length < 2 ^ 64 →
    (encodeList D l = .ok v ↔ EncodesL D l v)
  | [], v, _ => by simp [encodeList, EncodesL, eq_comm]
  | o :: os, v, hv => by
    rw [encodeList, EncodesL]
    constructor
    · intro H
      obtain ⟨a, h1, h2⟩ := bind_eq_ok.1 H
      obtain ⟨b, h3, h4⟩ := bind_eq_ok.1 h2
      simp only [ok.injEq] at h4
      subst h4
      rw [List.length_append] at hv
      exact ⟨a, b, rfl, (encodeObject_iff D o a (by omega)).1 h1,
        (encodeList_iff D os b (by omega)).1 h3⟩
    · rintro ⟨a, b, rfl, h1, h2⟩
      rw [List.length_append] at hv
      rw [(encodeObject_iff D o a (by omega)).2 h1]
      simp only [ok_bind]
      rw [(encodeList_iff D os b (by omega)).2 h2]
      rfl
end

/-! ## When it panics -/

mutual
theorem encodeObject_total (D : Deps) : ∀ o : BerObject,
    (TagsOk o → ∃ e, encodeObject D o = .ok e) ∧ (¬ TagsOk o → encodeObject D o = .panic)
  | .mk h c => by
    obtain ⟨h1, h2⟩ := encodeContent_total D c
    rw [encodeObject, TagsOk]
    constructor
    · rintro ⟨ht, hc⟩
      obtain ⟨v, hv⟩ := h1 hc
      rw [hv]
      simp only [ok_bind]
      rw [encodeHeader_ok.2 ⟨show ({ h with length := .definite v.length } : Header).tag ≤ 30 from ht,
        rfl⟩]
      exact ⟨_, rfl⟩
    · intro hn
      by_cases hc : TagsOkC c
      · obtain ⟨v, hv⟩ := h1 hc
        rw [hv]
        simp only [ok_bind]
        have ht : 30 < h.tag := Nat.lt_of_not_le fun hle => hn ⟨hle, hc⟩
        rw [show encodeHeader { h with length := .definite v.length } = .panic from if_pos ht]
        rfl
      · rw [h2 hc]; rfl
theorem encodeContent_total (D : Deps) : ∀ c : Content,
    (TagsOkC c → ∃ v, encodeContent D c = .ok v) ∧ (¬ TagsOkC c → encodeContent D c = .panic)
  | .endOfContent => by simp [encodeContent, TagsOkC]
  | .boolean b => by simp [encodeContent, TagsOkC]
  | .integer s => by simp [encodeContent, TagsOkC]
  | .bitString u s => by simp [encodeContent, TagsOkC]
  | .octetString s => by simp [encodeContent, TagsOkC]
  | .null => by simp [encodeContent, TagsOkC]
  | .enum n => by simp [encodeContent, TagsOkC]
  | .oid s => by simp [encodeContent, TagsOkC]
  | .relativeOid s => by simp [encodeContent, TagsOkC]
  | .utcTime t => by simp [encodeContent, TagsOkC]
  | .generalizedTime t => by simp [encodeContent, TagsOkC]
  | .str k s => by simp [encodeContent, TagsOkC]
  | .bmpString s => by simp [encodeContent, TagsOkC]
  | .universalString s => by simp [encodeContent, TagsOkC]
  | .sequence l => by rw [encodeContent, TagsOkC]; exact encodeList_total D l
  | .set l => by rw [encodeContent, TagsOkC]; exact encodeList_total D l
  | .optionalSome (.mk _ c) => by
    rw [encodeContent, TagsOkC, encodeInnerContent, TagsOkInner]; exact encodeContent_total D c
  | .optionalNone => by simp [encodeContent, TagsOkC]
  | .tagged _ _ o => by rw [encodeContent, TagsOkC]; exact encodeObject_total D o
  | .unknown a => by simp [encodeContent, TagsOkC]
theorem encodeList_total (D : Deps) : ∀ l : List BerObject,
    (TagsOkL l → ∃ v, encodeList D l = .ok v) ∧ (¬ TagsOkL l → encodeList D l = .panic)
  | [] => by simp [encodeList, TagsOkL]
  | o :: os => by
    obtain ⟨h1, h2⟩ := encodeObject_total D o
    obtain ⟨h3, h4⟩ := encodeList_total D os
    rw [encodeList, TagsOkL]
    constructor
    · rintro ⟨ho, hos⟩
      obtain ⟨a, ha⟩ := h1 ho
      obtain ⟨b, hb⟩ := h3 hos
      rw [ha]; simp only [ok_bind]; rw [hb]
      exact ⟨_, rfl⟩
    · intro hn
      by_cases ho : TagsOk o
      · obtain ⟨a, ha⟩ := h1 ho
        rw [ha]; simp only [ok_bind]
        rw [h4 fun hos => hn ⟨ho, hos⟩]; rfl
      · rw [h2 ho]; rfl
end

/-! ## Stored lengths and raw tags do not matter -/

mutual
theorem encodeObject_erase (D : Deps) : ∀ o : BerObject, encodeObject D (erase o) = encodeObject D o
  | .mk h c => by
    rw [erase, encodeObject, encodeObject, encodeContent_erase D c]
    rfl
theorem encodeContent_erase (D : Deps) : ∀ c : Content,
    encodeContent D (eraseC c) = encodeContent D c
  | .endOfContent | .boolean _ | .integer _ | .bitString _ _ | .octetString _ | .null | .enum _
  | .oid _ | .relativeOid _ | .utcTime _ | .generalizedTime _ | .str _ _ | .bmpString _
  | .universalString _ | .optionalNone => by simp [eraseC]
  | .sequence l => by rw [eraseC, encodeContent, encodeContent, encodeList_erase D l]
  | .set l => by rw [eraseC, encodeContent, encodeContent, encodeList_erase D l]
  | .optionalSome (.mk _ c) => by
    rw [eraseC, encodeContent, encodeContent, erase, encodeInnerContent, encodeInnerContent,
      encodeContent_erase D c]
  | .tagged _ _ o => by rw [eraseC, encodeContent, encodeContent, encodeObject_erase D o]
  | .unknown a => by simp [eraseC, encodeContent]
theorem encodeList_erase (D : Deps) : ∀ l : List BerObject,
    encodeList D (eraseL l) = encodeList D l
  | [] => by rw [eraseL]
  | o :: os => by
    rw [eraseL, encodeList, encodeList, encodeObject_erase D o, encodeList_erase D os]
end

/-! ## Reading back -/

theorem eraseH_eq {h h' : Header} (hk : SameKind h h') : eraseH h = eraseH h' := by
  obtain ⟨h1, h2, h3⟩ := hk
  simp [eraseH, h1, h2, h3]

theorem base256_enum {n : Nat} (hn : n < 2 ^ 32) : base256 (skipZeroes (toBeBytes 8 n)) = n := by
  have : (2 : Nat) ^ 32 ≤ 256 ^ 8 := by decide
  rw [base256_skipZeroes, base256_toBeBytes, Nat.mod_eq_of_lt (Nat.lt_of_lt_of_le hn this)]

theorem wfLeaf_denotes {D : Deps} {h : Header} {x : Content} {v : Bytes} (hW : WfLeaf D h x)
    (he : encodeContent D x = .ok v) {h' : Header} (hk : SameKind h' h)
    (hl : h'.length = .definite v.length) :
    ∃ x', Leaf D h' v x' ∧ eraseC x' = eraseC x := by
  obtain ⟨k1, k2, k3⟩ := hk
  cases x with
  | unknown a =>
    obtain ⟨w1, w2⟩ := hW
    simp only [encodeContent, ok.injEq] at he
    subst he
    refine ⟨.unknown ⟨h', a.data⟩, ⟨rfl, ?_⟩, ?_⟩
    · rw [k1, k3]
      rcases w2 with w2 | w2
      · exact .inl w2
      · exact .inr (.inl w2)
    · simp only [eraseC]
      obtain ⟨u1, u2, u3⟩ := w1
      rw [eraseH_eq (h := h') (h' := a.header) ⟨k1.trans u1.symm, k2.trans u2.symm, k3.trans u3.symm⟩]
  | sequence l => exact absurd hW id
  | set l => exact absurd hW id
  | optionalNone => exact absurd hW id
  | optionalSome o => exact absurd hW id
  | tagged _ _ _ => exact absurd hW id
  | boolean b =>
    refine ⟨.boolean b, ?_, rfl⟩
    simp only [encodeContent, ok.injEq] at he
    subst he
    obtain ⟨w1, w2⟩ := hW
    refine ⟨by rw [k1, w1], by rw [k3, w2], hl, _, rfl, ?_⟩
    cases b <;> simp
  | enum n =>
    refine ⟨.enum n, ?_, rfl⟩
    simp only [encodeContent, ok.injEq] at he
    subst he
    obtain ⟨w1, w2, w3, w4⟩ := hW
    exact ⟨by rw [k1, w1], by rw [k3, w2], by rw [k2, w3], (base256_enum w4).symm, w4⟩
  | _ =>
    refine ⟨_, ?_, rfl⟩
    simp only [encodeContent, ok.injEq] at he
    subst he
    simp only [WfLeaf] at hW
    simp only [Leaf, k1, k2, k3]
    simp [hW]

theorem framed_of_encode {h : Header} {v : Bytes} (ht : h.tag ≤ 30) (hv : v.length < 2 ^ 64)
    (n : Nat) :
    Framed n (identByte h :: encodeLength (.definite v.length) ++ v)
      { h with length := .definite v.length, rawTag := some [identByte h] } v := by
  have := berHeader_encode (h := { h with length := .definite v.length }) ht
    (fun n hn => by simp only [Length.definite.injEq] at hn; omega) (fun hn => by simp at hn)
  exact .definite _ v _ this rfl

theorem wf_tag {D : Deps} {d : Nat} {o : BerObject} (h : Wf D d o) : o.header.tag ≤ 30 := by
  cases h with
  | leaf => assumption
  | sequence _ _ _ _ h => simp [h]
  | set _ _ _ _ h => simp [h]

theorem wf_items {D : Deps} {d : Nat} (ih : ∀ o e, Wf D d o → encodeObject D o = .ok e →
    e.length < 2 ^ 64 → ∃ h' v x', Framed 50 e h' v ∧ Denotes D d h' v x' ∧
      erase (.mk h' x') = erase o) (l : List BerObject) (v : Bytes)
    (hW : ∀ o ∈ l, Wf D d o) (he : encodeList D l = .ok v) (hv : v.length < 2 ^ 64) :
    ∃ items : List Item, v = items.flatMap Item.bytes ∧
      (∀ it ∈ items, Framed 50 it.bytes it.header it.body) ∧
      (∀ it ∈ items, Denotes D d it.header it.body it.value) ∧
      eraseL (items.map fun it => .mk it.header it.value) = eraseL l := by
  induction l generalizing v with
  | nil =>
    simp only [encodeList, ok.injEq] at he
    subst he
    exact ⟨[], rfl, by simp, by simp, rfl⟩
  | cons o os ihl =>
    rw [encodeList] at he
    obtain ⟨a, h1, h2⟩ := bind_eq_ok.1 he
    obtain ⟨b, h3, h4⟩ := bind_eq_ok.1 h2
    simp only [ok.injEq] at h4
    subst h4
    rw [List.length_append] at hv
    obtain ⟨h', c, x', g1, g2, g3⟩ := ih o a (hW o (by simp)) h1 (by omega)
    obtain ⟨items, e1, e2, e3, e4⟩ := ihl b (fun o ho => hW o (by simp [ho])) h3 (by omega)
    refine ⟨⟨a, h', c, x'⟩ :: items, by rw [List.flatMap_cons, ← e1], ?_, ?_, ?_⟩
    · intro it hit
      rcases List.mem_cons.1 hit with rfl | hit
      · exact g1
      · exact e2 it hit
    · intro it hit
      rcases List.mem_cons.1 hit with rfl | hit
      · exact g2
      · exact e3 it hit
    · rw [List.map_cons, eraseL, eraseL, g3, e4]

/-- Contents octets of a well-formed object, under any header of the same kind. -/
theorem wf_content {D : Deps} {d : Nat} {o : BerObject} (hW : Wf D d o) {v : Bytes}
    (he : encodeContent D o.content = .ok v) (hv : v.length < 2 ^ 64) {h' : Header}
    (hk : SameKind h' o.header) (hl : h'.length = .definite v.length) :
    ∃ x', Denotes D d h' v x' ∧ eraseC x' = eraseC o.content := by
  induction d generalizing o v h' with
  | zero => cases hW
  | succ d ihd =>
    have ih : ∀ o e, Wf D d o → encodeObject D o = .ok e → e.length < 2 ^ 64 →
        ∃ h' v x', Framed 50 e h' v ∧ Denotes D d h' v x' ∧ erase (.mk h' x') = erase o := by
      intro o e hW he hl
      obtain ⟨h, x⟩ := o
      rw [encodeObject] at he
      obtain ⟨v, h1, h2⟩ := bind_eq_ok.1 he
      obtain ⟨vh, h3, h4⟩ := bind_eq_ok.1 h2
      simp only [ok.injEq] at h4
      subst h4
      obtain ⟨ht, rfl⟩ := encodeHeader_ok.1 h3
      have hv : v.length < 2 ^ 64 := by rw [List.length_append] at hl; omega
      obtain ⟨x', g1, g2⟩ := ihd hW h1 hv
        (h' := { h with length := .definite v.length, rawTag := some [identByte h] })
        ⟨rfl, rfl, rfl⟩ rfl
      refine ⟨_, v, x', framed_of_encode ht hv 50, g1, ?_⟩
      have g2 : eraseC x' = eraseC x := g2
      simp only [erase, g2]
      rfl
    obtain ⟨k1, k2, k3⟩ := hk
    cases hW with
    | leaf _ h x ht hL =>
      obtain ⟨x', g1, g2⟩ := wfLeaf_denotes hL he ⟨k1, k2, k3⟩ hl
      exact ⟨x', .leaf _ _ _ _ g1, g2⟩
    | sequence _ h l h1 h2 h3 h4 =>
      rw [BerObject.content_mk, encodeContent] at he
      obtain ⟨items, rfl, e2, e3, e4⟩ := wf_items ih l v h4 he hv
      refine ⟨_, .sequence d h' items (k1.trans h1) (k3.trans h2) (k2.trans h3) e2 e3, ?_⟩
      rw [BerObject.content_mk, eraseC, eraseC, e4]
    | set _ h l h1 h2 h3 h4 =>
      rw [BerObject.content_mk, encodeContent] at he
      obtain ⟨items, rfl, e2, e3, e4⟩ := wf_items ih l v h4 he hv
      refine ⟨_, .set d h' items (k1.trans h1) (k3.trans h2) (k2.trans h3) e2 e3, ?_⟩
      rw [BerObject.content_mk, eraseC, eraseC, e4]

theorem wf_object {D : Deps} {d : Nat} {o : BerObject} (hW : Wf D d o) {e : Bytes}
    (he : encodeObject D o = .ok e) (hl : e.length < 2 ^ 64) :
    ∃ v x', encodeContent D o.content = .ok v ∧
      Framed 50 e { o.header with
        length := .definite v.length, rawTag := some [identByte o.header] } v ∧
      Denotes D d { o.header with
        length := .definite v.length, rawTag := some [identByte o.header] } v x' ∧
      eraseC x' = eraseC o.content := by
  obtain ⟨h, x⟩ := o
  rw [encodeObject] at he
  obtain ⟨v, h1, h2⟩ := bind_eq_ok.1 he
  obtain ⟨vh, h3, h4⟩ := bind_eq_ok.1 h2
  simp only [ok.injEq] at h4
  subst h4
  obtain ⟨ht, rfl⟩ := encodeHeader_ok.1 h3
  have hv : v.length < 2 ^ 64 := by rw [List.length_append] at hl; omega
  obtain ⟨x', g1, g2⟩ := wf_content hW h1 hv
    (h' := { h with length := .definite v.length, rawTag := some [identByte h] })
    ⟨rfl, rfl, rfl⟩ rfl
  exact ⟨v, x', h1, framed_of_encode ht hv 50, g1, g2⟩

/-- What was read is well-formed, apart from large tag numbers and times. -/
theorem denotes_wf {D : Deps} {d : Nat} {h : Header} {c : Bytes} {x : Content}
    (hD : Denotes D d h c x)
    (ht : ∀ o', Node o' (.mk h x) → o'.header.tag ≤ 30)
    (hu : ∀ o', Node o' (.mk h x) → ∀ t, o'.content = .utcTime t →
      D.utcTime o'.header.constructed (D.display t) = .ok t)
    (hg : ∀ o', Node o' (.mk h x) → ∀ t, o'.content = .generalizedTime t →
      D.generalizedTime o'.header.constructed (D.display t) = .ok t) :
    Wf D d (.mk h x) := by
  induction hD with
  | leaf d h c x hL =>
    have ht' : h.tag ≤ 30 := ht (.mk h x) .self
    refine .leaf d h x ht' ?_
    have hu' := hu _ .self
    have hg' := hg _ .self
    cases x with
    | unknown a =>
      obtain ⟨rfl, h2⟩ := hL
      refine ⟨⟨rfl, rfl, rfl⟩, ?_⟩
      rcases h2 with h2 | h2 | h2
      · exact .inl h2
      · exact .inr h2
      · omega
    | utcTime t => exact ⟨hL.1, hL.2.1, hu' t rfl⟩
    | generalizedTime t => exact ⟨hL.1, hL.2.1, hg' t rfl⟩
    | enum n => exact ⟨hL.1, hL.2.1, hL.2.2.1, hL.2.2.2.2⟩
    | boolean b => exact ⟨hL.1, hL.2.1⟩
    | bmpString s =>
      obtain ⟨h1, h2, h3, rfl, h5⟩ := hL
      exact ⟨h1, h2, h3, h5⟩
    | str k s =>
      obtain ⟨h1, h2, h3, rfl, h5, h6⟩ := hL
      exact ⟨h1, h2, h3, h5, h6⟩
    | bitString u s => exact ⟨hL.1, hL.2.1, hL.2.2.1⟩
    | universalString s => exact ⟨hL.1, hL.2.1, hL.2.2.1⟩
    | endOfContent => exact hL
    | null => exact hL
    | integer s => exact ⟨hL.1, hL.2.1⟩
    | octetString s => exact ⟨hL.1, hL.2.1⟩
    | oid s => exact ⟨hL.1, hL.2.1⟩
    | relativeOid s => exact ⟨hL.1, hL.2.1⟩
    | sequence l => exact absurd hL id
    | set l => exact absurd hL id
    | optionalNone => exact absurd hL id
    | optionalSome o => exact absurd hL id
    | tagged _ _ _ => exact absurd hL id
  | sequence d h items h1 h2 h3 _ _ ih =>
    refine .sequence d h _ h1 h2 h3 ?_
    intro o ho
    obtain ⟨it, hit, rfl⟩ := List.mem_map.1 ho
    exact ih it hit (fun o' hn => ht o' (.seq _ _ _ ho hn)) (fun o' hn => hu o' (.seq _ _ _ ho hn))
      (fun o' hn => hg o' (.seq _ _ _ ho hn))
  | set d h items h1 h2 h3 _ _ ih =>
    refine .set d h _ h1 h2 h3 ?_
    intro o ho
    obtain ⟨it, hit, rfl⟩ := List.mem_map.1 ho
    exact ih it hit (fun o' hn => ht o' (.set _ _ _ ho hn)) (fun o' hn => hu o' (.set _ _ _ ho hn))
      (fun o' hn => hg o' (.set _ _ _ ho hn))

theorem wf_tagsOk {D : Deps} {d : Nat} {o : BerObject} (hW : Wf D d o) : TagsOk o := by
  induction hW with
  | leaf d h x ht hL =>
    refine ⟨ht, ?_⟩
    cases x <;> first | trivial | exact absurd hL id
  | sequence d h l h1 h2 h3 h4 ih =>
    refine ⟨by omega, ?_⟩
    simp only [TagsOkC]
    clear h4
    induction l with
    | nil => simp [TagsOkL]
    | cons o os ihl => exact ⟨ih o (by simp), ihl fun o' ho => ih o' (by simp [ho])⟩
  | set d h l h1 h2 h3 h4 ih =>
    refine ⟨by omega, ?_⟩
    simp only [TagsOkC]
    clear h4
    induction l with
    | nil => simp [TagsOkL]
    | cons o os ihl => exact ⟨ih o (by simp), ihl fun o' ho => ih o' (by simp [ho])⟩

/-- The reader of contents octets, definite length. -/
theorem readContentAs_definite {D : Deps} {d tag : Nat} {k : Bool} {c : Bytes}
    {x : Content} (hD : Denotes D d (Header.new .universal k tag (.definite c.length)) c x)
    (hl : c.length ≤ maxObjectSize) (rem : Bytes) :
    berReadElementContentAs D (c ++ rem) tag (.definite c.length) k d = .ok (rem, x) := by
  obtain ⟨d', rfl⟩ : ∃ d', d = d' + 1 := by
    cases d with
    | zero => cases hD
    | succ d' => exact ⟨d', rfl⟩
  unfold berReadElementContentAs
  dsimp only
  rw [if_neg (by omega), if_neg (by simp)]
  rw [getObjectContent_definite (hdr := Header.new .universal k tag (.definite c.length)) rfl c rem rfl]
  simp only [ok_bind]
  rw [(objectFromAny_iff D _ _ c x (fun L hL => by
    simp only [Header.new, Length.definite.injEq] at hL; exact hL)).2 hD]
  rfl

end Verif
