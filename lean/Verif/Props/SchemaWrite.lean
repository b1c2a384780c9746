import Verif.Props.Schema
import Verif.Props.Survive
/-!
# Property C108: composed parsers read what `to_vec` writes
-/
namespace Verif
open Outcome Spec

/-! ## Specification -/

/-- The value `x`, written under a header of form `k`, is a value of the universal type `t`. -/
def Spec.FitsAs (D : Deps) (R : Rules) (t : Nat) (k : Bool) (x : Content) : Prop :=
  ((t ≤ 30 ∧ Wf D 50 (.mk (Header.new .universal k t (.definite 0)) x)) ∨
    (30 < t ∧ ∃ a, x = .unknown a ∧ SameKind a.header (Header.new .universal k t (.definite 0)))) ∧
  (R = .der → ∀ v, v.length < 2 ^ 64 → EncodesC D x v → DerRules t v)

mutual
/-- `Fits D R s o`: the object `o` is a value of the type described by `s`.  Stored lengths and raw tags are arbitrary. -/
def Spec.Fits (D : Deps) (R : Rules) : Schema → BerObject → Prop
  | .any, o => Wf D 50 o ∧ (R = .der → o.header.cls = .universal → ∀ v, v.length < 2 ^ 64 → EncodesC D o.content v →
      DerRules o.header.tag v)
  | .typed tag, o => o.header.tag = tag ∧ FitsAs D R tag o.header.constructed o.content
  | .choice tag tags, o => o.header.tag ∈ tag :: tags ∧ FitsAs D R o.header.tag o.header.constructed o.content
  | .sequenceOf s, o => s.isOptional = false ∧ SameKind o.header (Header.new .universal true 16 (.definite 0)) ∧
      ∃ vs, o.content = .sequence vs ∧ ∀ v ∈ vs, Fits D R s v
  | .setOf s, o => s.isOptional = false ∧ SameKind o.header (Header.new .universal true 17 (.definite 0)) ∧
      ∃ vs, o.content = .set vs ∧ ∀ v ∈ vs, Fits D R s v
  | .sequence l, o => SameKind o.header (Header.new .universal true 16 (.definite 0)) ∧
      ∃ vs, o.content = .sequence vs ∧ FitsAll D R l vs
  | .set l, o => SameKind o.header (Header.new .universal true 17 (.definite 0)) ∧
      ∃ vs, o.content = .set vs ∧ FitsAll D R l vs
  | .explicit tag s, o => o.header.cls ≠ .universal ∧ o.header.tag = tag ∧ o.header.constructed = true ∧
      ∃ o', o.content = .tagged o.header.cls tag o' ∧ Fits D R s o'
  | .implicit tag type, o => o.header.tag = tag ∧ FitsAs D R type o.header.constructed o.content
  | .optional s, o => ∃ o', o.content = .optionalSome o' ∧ SameKind o.header o'.header ∧ Fits D R s o'
  | .explicitOptional tag s, o => o.header.cls ≠ .universal ∧ o.header.tag = tag ∧ o.header.constructed = true ∧
      ∃ h o', o.content = .optionalSome (.mk h (.tagged o.header.cls tag o')) ∧ SameKind o.header h ∧ Fits D R s o'
/-- Components one by one. -/
def Spec.FitsAll (D : Deps) (R : Rules) : List Schema → List BerObject → Prop
  | [], vs => vs = []
  | s :: l, vs => ∃ v vs', vs = v :: vs' ∧ Fits D R s v ∧ FitsAll D R l vs'
end

mutual
/-- Nothing in the object is an absent option, and its times are read back from their written form (which ends with `Z`
under DER). -/
def Spec.Keeps (D : Deps) (R : Rules) : BerObject → Prop
  | .mk h c => KeepsC D R h.constructed c
/-- The same for contents. -/
def Spec.KeepsC (D : Deps) (R : Rules) (k : Bool) : Content → Prop
  | .sequence l | .set l => KeepsL D R l
  | .optionalSome o => Keeps D R o
  | .optionalNone => False
  | .tagged _ _ o => Keeps D R o
  | .utcTime t => D.utcTime k (D.display t) = .ok t ∧ (R = .der → (D.display t).getLast? = some 0x5a)
  | .generalizedTime t => D.generalizedTime k (D.display t) = .ok t ∧ (R = .der → (D.display t).getLast? = some 0x5a)
  | _ => True
/-- The same for lists. -/
def Spec.KeepsL (D : Deps) (R : Rules) : List BerObject → Prop
  | [] => True
  | o :: l => Keeps D R o ∧ KeepsL D R l
end

/-! ## Lemmas: writing, then reading -/

theorem encode_framedBy {D : Deps} {h : Header} {x : Content} {e : Bytes}
    (he : encodeObject D (.mk h x) = .ok e) (hl : e.length < 2 ^ 32) :
    ∃ v h', encodeContent D x = .ok v ∧ v.length < e.length ∧ SameKind h' h ∧ h'.length = .definite v.length ∧
      ∀ R rest, FramedBy R (e ++ rest) rest h' v := by
  rw [encodeObject] at he
  obtain ⟨v, h1, h2⟩ := bind_eq_ok.1 he
  obtain ⟨vh, h3, h4⟩ := bind_eq_ok.1 h2
  simp only [ok.injEq] at h4
  subst h4
  obtain ⟨ht, rfl⟩ := encodeHeader_ok.1 h3
  simp only [List.length_append, List.length_cons] at hl
  have hB := berHeader_encode ht (fun n hn => by simp only [Length.definite.injEq] at hn; omega) (fun hn => by simp at hn)
  refine ⟨v, { h with length := .definite v.length, rawTag := some [identByte { h with length := .definite v.length }] },
    h1, by simp only [List.length_append, List.length_cons]; omega, ⟨rfl, rfl, rfl⟩, rfl, fun R rest => ?_⟩
  cases R with
  | ber => exact ⟨_, rfl, .definite _ v _ hB rfl⟩
  | der => exact ⟨_, rfl, ⟨hB, by simp⟩, rfl⟩

theorem sameKind_eraseH {h h' : Header} (hk : SameKind h h') : eraseH h = eraseH h' := by
  obtain ⟨c, k, t, l, r⟩ := h
  obtain ⟨c', k', t', l', r'⟩ := h'
  obtain ⟨rfl, rfl, rfl⟩ := hk
  rfl

theorem fitsAs_denotes {D : Deps} {R : Rules} {t : Nat} {k : Bool} {x : Content} (hf : FitsAs D R t k x) {v : Bytes}
    (he : encodeContent D x = .ok v) (hl : v.length < 2 ^ 32) :
    ∃ x', Denotes D 50 (Header.new .universal k t (.definite v.length)) v x' ∧ eraseC x' = eraseC x ∧
      (R = .der → DerRules t v) := by
  obtain ⟨h1, h2⟩ := hf
  have h3 : R = .der → DerRules t v := fun hR => h2 hR v (by omega) ((encodeContent_iff D x v (by omega)).1 he)
  rcases h1 with ⟨_, hW⟩ | ⟨ht, a, rfl, hk⟩
  · obtain ⟨x', h4, h5⟩ := wf_content hW he (by omega) (h' := Header.new .universal k t (.definite v.length))
      ⟨rfl, rfl, rfl⟩ rfl
    exact ⟨x', h4, h5, h3⟩
  · simp only [encodeContent, ok.injEq] at he
    subst he
    refine ⟨.unknown ⟨_, a.data⟩, .leaf 49 _ _ _ ⟨rfl, .inr (.inr ht)⟩, ?_, h3⟩
    simp only [eraseC, Content.unknown.injEq, Any.mk.injEq, and_true]
    rw [sameKind_eraseH hk]
    rfl

theorem typedBy_written {D : Deps} {R : Rules} {tag t : Nat} {o : BerObject} {e : Bytes} (ht : o.header.tag = tag)
    (hf : FitsAs D R t o.header.constructed o.content) (he : encodeObject D o = .ok e) (hl : e.length < 2 ^ 32)
    (rest : Bytes) : ∃ o', TypedBy D R tag t (e ++ rest) rest o' ∧ o'.header.length ≠ .indefinite ∧
      erase o' = erase o := by
  obtain ⟨h, x⟩ := o
  simp only [BerObject.header, BerObject.content] at *
  obtain ⟨v, h', h1, h2, h3, h4, h5⟩ := encode_framedBy he hl
  obtain ⟨x', h6, h7, h8⟩ := fitsAs_denotes hf h1 (by omega)
  refine ⟨.mk h' x', ⟨v, h5 R rest, h3.2.2.trans ht, ?_, h8, ?_⟩, by simp [h4], ?_⟩
  · intro l hl
    rw [BerObject.header, h4] at hl
    cases hl
    exact .inl (by omega)
  · simp only [BerObject.header, BerObject.content]
    rw [h3.2.1, h4]
    exact h6
  · simp only [erase]
    rw [sameKind_eraseH h3, h7]

theorem several_written {D : Deps} {R : Rules} {s : Schema}
    (ih : ∀ o e, Fits D R s o → encodeObject D o = .ok e → e.length < 2 ^ 32 → ∀ rest,
      ∃ o', Accepts D R s (e ++ rest) rest o' ∧ erase o' = erase o) :
    ∀ (vs : List BerObject) (v : Bytes), (∀ o ∈ vs, Fits D R s o) → encodeList D vs = .ok v → v.length < 2 ^ 32 →
      ∃ vs', Several (Accepts D R s) v vs' ∧ eraseL vs' = eraseL vs
  | [], v, _, he, _ => by
    simp only [encodeList, ok.injEq] at he
    subst he
    exact ⟨[], .nil, rfl⟩
  | o :: vs, v, hf, he, hl => by
    rw [encodeList] at he
    obtain ⟨a, h1, h2⟩ := bind_eq_ok.1 he
    obtain ⟨b, h3, h4⟩ := bind_eq_ok.1 h2
    simp only [ok.injEq] at h4
    subst h4
    simp only [List.length_append] at hl
    obtain ⟨o', h5, h6⟩ := ih o a (hf _ (by simp)) h1 (by omega) b
    obtain ⟨vs', h7, h8⟩ := several_written ih vs b (fun o ho => hf o (by simp [ho])) h3 (by omega)
    exact ⟨o' :: vs', .cons _ _ _ _ h5 h7, by simp only [eraseL]; rw [h6, h8]⟩

theorem encode_sameKind {D : Deps} {h h' : Header} {x : Content} (hk : SameKind h h') :
    encodeObject D (.mk h x) = encodeObject D (.mk h' x) := by
  rw [← encodeObject_erase, ← encodeObject_erase D (.mk h' x)]
  simp only [erase]
  rw [sameKind_eraseH hk]

theorem encode_optional {D : Deps} {h : Header} {o : BerObject} (hk : SameKind h o.header) :
    encodeObject D (.mk h (.optionalSome o)) = encodeObject D o := by
  obtain ⟨h', x⟩ := o
  rw [show encodeObject D (.mk h' x) = encodeObject D (.mk h x) from (encode_sameKind hk).symm]
  simp only [encodeObject, encodeContent, encodeInnerContent]

mutual
theorem fits_written (D : Deps) (R : Rules) : ∀ (s : Schema) (o : BerObject) (e : Bytes), Fits D R s o →
    encodeObject D o = .ok e → e.length < 2 ^ 32 → ∀ rest, ∃ o', Accepts D R s (e ++ rest) rest o' ∧ erase o' = erase o
  | .any, o, e, hf, he, hl, rest => by
    obtain ⟨hW, hd⟩ := hf
    obtain ⟨h, x⟩ := o
    obtain ⟨v, h', h1, h2, h3, h4, h5⟩ := encode_framedBy he hl
    simp only [BerObject.header, BerObject.content] at hd
    cases R with
    | ber =>
      obtain ⟨x', h6, h7⟩ := wf_content hW h1 (by omega) (h' := h') h3 h4
      refine ⟨.mk h' x', ⟨v, h5 _ rest, h6⟩, ?_⟩
      simp only [erase]
      rw [sameKind_eraseH h3, h7]; rfl
    | der =>
      by_cases hu : h.cls = .universal
      · obtain ⟨x', h6, h7⟩ := wf_content hW h1 (by omega)
          (h' := Header.new .universal h'.constructed h'.tag h'.length) ⟨hu.symm, h3.2.1, h3.2.2⟩ h4
        refine ⟨.mk h' x', ⟨v, h5 _ rest, by omega, .inr ⟨h3.1.trans hu, ?_, h6⟩⟩, ?_⟩
        · have := hd rfl hu v (by omega) ((encodeContent_iff D x v (by omega)).1 h1)
          rw [← h3.2.2] at this
          exact this
        · simp only [erase]
          rw [sameKind_eraseH h3, h7]; rfl
      · refine ⟨.mk h' (.unknown ⟨h', v⟩), ⟨v, h5 _ rest, by omega, .inl ⟨fun h => hu (h3.1 ▸ h), rfl⟩⟩, ?_⟩
        cases hW with
        | leaf _ _ _ _ hL =>
          cases x with
          | unknown a =>
            simp only [encodeContent, ok.injEq] at h1
            subst h1
            simp only [erase, eraseC]
            rw [sameKind_eraseH h3, sameKind_eraseH hL.1]
          | _ =>
            first
            | exact absurd hL.1 hu
            | exact hL.elim
        | sequence _ _ _ hc => exact absurd hc hu
        | set _ _ _ hc => exact absurd hc hu
  | .typed tag, o, e, hf, he, hl, rest => by
    obtain ⟨o', h1, _, h2⟩ := typedBy_written hf.1 hf.2 he hl rest
    exact ⟨o', h1, h2⟩
  | .choice tag tags, o, e, hf, he, hl, rest => by
    obtain ⟨o', h1, _, h2⟩ := typedBy_written rfl hf.2 he hl rest
    exact ⟨o', ⟨_, hf.1, h1⟩, h2⟩
  | .implicit tag type, o, e, hf, he, hl, rest => by
    obtain ⟨o', h1, h3, h2⟩ := typedBy_written hf.1 hf.2 he hl rest
    exact ⟨o', ⟨h1, h3⟩, h2⟩
  | .sequenceOf s, .mk h x, e, hf, he, hl, rest => by
    obtain ⟨h1, h2, vs, h3, h4⟩ := hf
    simp only [BerObject.header, BerObject.content] at h2 h3
    subst h3
    obtain ⟨v, h', h5, h6, h7, h8, h9⟩ := encode_framedBy he hl
    obtain ⟨vs', h10, h11⟩ := several_written (fits_written D R s) vs v h4 h5 (by omega)
    refine ⟨.fromSeq vs', ⟨h', v, vs', h9 R rest, h7.2.2.trans h2.2.2, h1, h10, rfl⟩, ?_⟩
    simp only [erase, BerObject.fromSeq, BerObject.fromObj, eraseC]
    rw [h11, sameKind_eraseH h2]
    rfl
  | .setOf s, .mk h x, e, hf, he, hl, rest => by
    obtain ⟨h1, h2, vs, h3, h4⟩ := hf
    simp only [BerObject.header, BerObject.content] at h2 h3
    subst h3
    obtain ⟨v, h', h5, h6, h7, h8, h9⟩ := encode_framedBy he hl
    obtain ⟨vs', h10, h11⟩ := several_written (fits_written D R s) vs v h4 h5 (by omega)
    refine ⟨.fromSet vs', ⟨h', v, vs', h9 R rest, h7.2.2.trans h2.2.2, h1, h10, rfl⟩, ?_⟩
    simp only [erase, BerObject.fromSet, BerObject.fromObj, eraseC]
    rw [h11, sameKind_eraseH h2]
    rfl
  | .sequence l, .mk h x, e, hf, he, hl, rest => by
    obtain ⟨h2, vs, h3, h4⟩ := hf
    simp only [BerObject.header, BerObject.content] at h2 h3
    subst h3
    obtain ⟨v, h', h5, h6, h7, h8, h9⟩ := encode_framedBy he hl
    obtain ⟨vs', h10, h11⟩ := fitsAll_written D R l vs v h4 h5 (by omega) []
    refine ⟨.fromSeq vs', ⟨h', v, [], vs', h9 R rest, h7.2.2.trans h2.2.2, by simpa using h10, rfl⟩, ?_⟩
    simp only [erase, BerObject.fromSeq, BerObject.fromObj, eraseC]
    rw [h11, sameKind_eraseH h2]
    rfl
  | .set l, .mk h x, e, hf, he, hl, rest => by
    obtain ⟨h2, vs, h3, h4⟩ := hf
    simp only [BerObject.header, BerObject.content] at h2 h3
    subst h3
    obtain ⟨v, h', h5, h6, h7, h8, h9⟩ := encode_framedBy he hl
    obtain ⟨vs', h10, h11⟩ := fitsAll_written D R l vs v h4 h5 (by omega) []
    refine ⟨.fromSet vs', ⟨h', v, [], vs', h9 R rest, h7.2.2.trans h2.2.2, by simpa using h10, rfl⟩, ?_⟩
    simp only [erase, BerObject.fromSet, BerObject.fromObj, eraseC]
    rw [h11, sameKind_eraseH h2]
    rfl
  | .explicit tag s, .mk h x, e, hf, he, hl, rest => by
    obtain ⟨h1, h2, h3, o', h4, h5⟩ := hf
    simp only [BerObject.header, BerObject.content] at h1 h2 h3 h4
    subst h4
    obtain ⟨v, h', h6, h7, h8, h9, h10⟩ := encode_framedBy he hl
    rw [encodeContent] at h6
    obtain ⟨o'', h11, h12⟩ := fits_written D R s o' v h5 h6 (by omega) []
    refine ⟨.mk h' (.tagged h'.cls tag o''), ⟨h', v, [], o'', h10 R rest, fun h => h1 (h8.1 ▸ h), h8.2.2.trans h2,
      h8.2.1.trans h3, by simpa using h11, rfl⟩, ?_⟩
    simp only [erase, eraseC]
    rw [h12, sameKind_eraseH h8, h8.1]
  | .optional s, .mk h x, e, hf, he, hl, rest => by
    obtain ⟨o', h1, h2, h3⟩ := hf
    simp only [BerObject.header, BerObject.content] at h1 h2
    subst h1
    rw [encode_optional h2] at he
    obtain ⟨o'', h4, h5⟩ := fits_written D R s o' e h3 he hl rest
    refine ⟨.mk o''.header (.optionalSome o''), .inl ⟨o'', h4, rfl⟩, ?_⟩
    have h6 : eraseH o''.header = eraseH o'.header := by
      have := congrArg BerObject.header h5
      rw [← BerObject.eta o'', ← BerObject.eta o'] at this
      simpa only [erase, BerObject.header] using this
    simp only [erase, eraseC]
    rw [h6, h5, sameKind_eraseH h2]
    rfl
  | .explicitOptional tag s, .mk h x, e, hf, he, hl, rest => by
    obtain ⟨h1, h2, h3, hh, o', h4, h13, h5⟩ := hf
    simp only [BerObject.header, BerObject.content] at h1 h2 h3 h4 h13
    subst h4
    rw [encode_optional (o := .mk hh _) h13] at he
    obtain ⟨v, h', h6, h7, h8, h9, h10⟩ := encode_framedBy he hl
    rw [encodeContent] at h6
    obtain ⟨o'', h11, h12⟩ := fits_written D R s o' v h5 h6 (by omega) []
    refine ⟨.mk h' (.optionalSome (.mk h' (.tagged h'.cls tag o''))), .inl ⟨h', v, [], o'', h10 .ber rest,
      fun h => h1 ((h8.1.trans h13.1.symm) ▸ h), (h8.2.2.trans h13.2.2.symm).trans h2,
      (h8.2.1.trans h13.2.1.symm).trans h3, by simpa using h11, rfl⟩, ?_⟩
    simp only [erase, eraseC]
    rw [h12, sameKind_eraseH h8, sameKind_eraseH h13, h8.1, h13.1]
theorem fitsAll_written (D : Deps) (R : Rules) : ∀ (l : List Schema) (vs : List BerObject) (v : Bytes), FitsAll D R l vs →
    encodeList D vs = .ok v → v.length < 2 ^ 32 → ∀ rest, ∃ vs', AcceptsAll D R l (v ++ rest) rest vs' ∧
      eraseL vs' = eraseL vs
  | [], vs, v, hf, he, hl, rest => by
    obtain rfl : vs = [] := hf
    simp only [encodeList, ok.injEq] at he
    subst he
    exact ⟨[], ⟨rfl, rfl⟩, rfl⟩
  | s :: l, vs, v, hf, he, hl, rest => by
    obtain ⟨o, os, rfl, hf1, hf2⟩ := hf
    rw [encodeList] at he
    obtain ⟨a, h1, h2⟩ := bind_eq_ok.1 he
    obtain ⟨b, h3, h4⟩ := bind_eq_ok.1 h2
    simp only [ok.injEq] at h4
    subst h4
    simp only [List.length_append] at hl
    obtain ⟨o', h5, h6⟩ := fits_written D R s o a hf1 h1 (by omega) (b ++ rest)
    obtain ⟨vs', h7, h8⟩ := fitsAll_written D R l os b hf2 h3 (by omega) rest
    exact ⟨o' :: vs', ⟨_, _, _, by rw [List.append_assoc]; exact h5, h7, rfl⟩, by simp only [eraseL]; rw [h6, h8]⟩
end

/-! ## Lemmas: what was read fits -/

theorem keepsL_mem {D : Deps} {R : Rules} : ∀ {l : List BerObject} {o : BerObject}, KeepsL D R l → o ∈ l → Keeps D R o
  | _ :: _, _, h, hm => by
    rcases List.mem_cons.1 hm with rfl | hm
    · exact h.1
    · exact keepsL_mem h.2 hm

theorem keeps_node {D : Deps} {R : Rules} {o o' : BerObject} (hn : Node o' o) (h : Keeps D R o) : Keeps D R o' := by
  induction hn with
  | self => exact h
  | seq hd l o hm _ ih => exact ih (keepsL_mem h hm)
  | set hd l o hm _ ih => exact ih (keepsL_mem h hm)

theorem keeps_wf {D : Deps} {R : Rules} {d : Nat} {h : Header} {c : Bytes} {x : Content} (hD : Denotes D d h c x)
    (ht : TagsOk (.mk h x)) (hk : Keeps D R (.mk h x)) : Wf D d (.mk h x) := by
  refine denotes_wf hD (fun o' hn => node_tagsOk hn ht) (fun o' hn t hc => ?_) (fun o' hn t hc => ?_)
  · have := keeps_node hn hk
    obtain ⟨h', x'⟩ := o'
    simp only [BerObject.content] at hc
    subst hc
    exact this.1
  · have := keeps_node hn hk
    obtain ⟨h', x'⟩ := o'
    simp only [BerObject.content] at hc
    subst hc
    exact this.1

/-- The contents octets written obey the rules that the contents octets read obeyed. -/
theorem derRules_written {D : Deps} {d : Nat} {h : Header} {c : Bytes} {x : Content} (hD : Denotes D d h c x)
    (hu : h.cls = .universal) (hk : KeepsC D .der h.constructed x) (hr : DerRules h.tag c) {v : Bytes}
    (hv : EncodesC D x v) : DerRules h.tag v := by
  cases hD with
  | sequence d _ items hc ht =>
    rw [ht]
    constructor <;> intro h <;> omega
  | set d _ items hc ht =>
    rw [ht]
    constructor <;> intro h <;> omega
  | leaf d _ _ _ hL =>
    cases x with
    | boolean b =>
      obtain ⟨_, ht, _⟩ := hL
      rw [ht]
      simp only [EncodesC] at hv
      subst hv
      constructor
      · intro _; cases b <;> simp
      all_goals intro h; omega
    | integer s =>
      obtain ⟨_, _, rfl⟩ := hL
      simp only [EncodesC] at hv
      subst hv
      exact hr
    | bitString u s =>
      obtain ⟨_, _, _, rfl⟩ := hL
      simp only [EncodesC] at hv
      subst hv
      exact hr
    | utcTime t =>
      obtain ⟨_, ht, _⟩ := hL
      rw [ht]
      simp only [EncodesC] at hv
      subst hv
      constructor
      case time => intro _; exact hk.2 rfl
      all_goals intro h; omega
    | generalizedTime t =>
      obtain ⟨_, ht, _⟩ := hL
      rw [ht]
      simp only [EncodesC] at hv
      subst hv
      constructor
      case time => intro _; exact hk.2 rfl
      all_goals intro h; omega
    | str k s =>
      obtain ⟨_, ht, _⟩ := hL
      rw [ht]
      constructor <;> intro h <;> cases k <;> simp [strTag] at h
    | unknown a =>
      obtain ⟨_, h1 | h1 | h1⟩ := hL
      · exact absurd hu h1
      · simp only [List.mem_cons, List.not_mem_nil, or_false] at h1
        constructor <;> intro h <;> omega
      · constructor <;> intro h <;> omega
    | _ =>
      first
      | exact hL.elim
      | (have ht := hL.2
         constructor <;> intro h <;> omega)
      | (have ht := hL.2.1
         constructor <;> intro h <;> omega)

theorem wf_sameKind {D : Deps} {d : Nat} {h h' : Header} {x : Content} (hW : Wf D d (.mk h x)) (hk : SameKind h h') :
    Wf D d (.mk h' x) := by
  obtain ⟨c, k, t, l, r⟩ := h
  obtain ⟨c', k', t', l', r'⟩ := h'
  obtain ⟨rfl, rfl, rfl⟩ := hk
  cases hW with
  | leaf d _ _ h1 h2 =>
    refine .leaf d _ _ h1 ?_
    cases x <;> exact h2
  | sequence d _ l h1 h2 h3 h4 => exact .sequence d _ l h1 h2 h3 h4
  | set d _ l h1 h2 h3 h4 => exact .set d _ l h1 h2 h3 h4

theorem typedBy_fits {D : Deps} {R : Rules} {tag t : Nat} {i rem : Bytes} {o : BerObject} (hT : TypedBy D R tag t i rem o)
    (ht : TagsOk o) (hk : Keeps D R o) : o.header.tag = tag ∧ FitsAs D R t o.header.constructed o.content := by
  obtain ⟨h, x⟩ := o
  obtain ⟨c, _, h1, _, h2, h3⟩ := hT
  simp only [BerObject.header, BerObject.content] at *
  have hk' : KeepsC D R h.constructed x := hk
  refine ⟨h1, ?_, ?_⟩
  · rcases Nat.lt_or_ge 30 t with hlt | hle
    · refine .inr ⟨hlt, ?_⟩
      cases h3 with
      | sequence _ _ _ _ h5 => simp only [Header.new] at h5; omega
      | set _ _ _ _ h5 => simp only [Header.new] at h5; omega
      | leaf d _ _ _ hL =>
        cases x with
        | unknown a => exact ⟨a, rfl, by rw [hL.1]; exact ⟨rfl, rfl, rfl⟩⟩
        | str k s =>
          have h5 := hL.2.1
          simp only [Header.new] at h5
          cases k <;> simp [strTag] at h5 <;> omega
        | _ =>
          first
          | exact hL.elim
          | (have h5 := hL.2
             simp only [Header.new] at h5
             omega)
          | (have h5 := hL.2.1
             simp only [Header.new] at h5
             omega)
    · refine .inl ⟨hle, ?_⟩
      exact wf_sameKind (keeps_wf (R := R) h3 ⟨hle, ht.2⟩ hk') ⟨rfl, rfl, rfl⟩
  · rintro rfl v _ hv
    exact derRules_written h3 rfl hk' (h2 rfl) hv

theorem several_fits {D : Deps} {R : Rules} {s : Schema}
    (ih : ∀ i rem o, Accepts D R s i rem o → TagsOk o → Keeps D R o → Fits D R s o) {c : Bytes} {vs : List BerObject}
    (h : Several (Accepts D R s) c vs) (ht : TagsOkL vs) (hk : KeepsL D R vs) : ∀ v ∈ vs, Fits D R s v := by
  induction h with
  | nil => simp
  | cons i rem o os h1 _ ih' =>
    intro v hv
    rcases List.mem_cons.1 hv with rfl | hv
    · exact ih _ _ _ h1 ht.1 hk.1
    · exact ih' ht.2 hk.2 v hv

mutual
theorem accepts_fits (D : Deps) (R : Rules) : ∀ (s : Schema) (i rem : Bytes) (o : BerObject), Accepts D R s i rem o →
    TagsOk o → Keeps D R o → Fits D R s o
  | .any, i, rem, .mk h x, hA, ht, hk => by
    obtain ⟨c, _, hA⟩ := hA
    have hk' : KeepsC D R h.constructed x := hk
    cases R with
    | ber => exact ⟨keeps_wf hA ht hk, by simp⟩
    | der =>
      obtain ⟨_, ⟨h1, h2⟩ | ⟨h1, h2, h3⟩⟩ := hA
      · simp only [BerObject.header, BerObject.content] at h1 h2
        subst h2
        exact ⟨.leaf 49 _ _ ht.1 ⟨⟨rfl, rfl, rfl⟩, .inl h1⟩, fun _ h => absurd h h1⟩
      · simp only [BerObject.header, BerObject.content] at h1 h2 h3
        refine ⟨wf_sameKind (keeps_wf (R := .der) h3 ⟨ht.1, ht.2⟩ hk') ⟨h1.symm, rfl, rfl⟩, fun _ _ v _ hv => ?_⟩
        exact derRules_written h3 rfl hk' h2 hv
  | .typed tag, i, rem, o, hA, ht, hk => typedBy_fits hA ht hk
  | .choice tag tags, i, rem, o, hA, ht, hk => by
    obtain ⟨t, hm, hA⟩ := hA
    obtain ⟨rfl, h2⟩ := typedBy_fits hA ht hk
    exact ⟨hm, h2⟩
  | .implicit tag type, i, rem, o, hA, ht, hk => typedBy_fits hA.1 ht hk
  | .sequenceOf s, i, rem, o, hA, ht, hk => by
    obtain ⟨h, c, vs, _, _, h1, h2, rfl⟩ := hA
    exact ⟨h1, ⟨rfl, rfl, rfl⟩, vs, rfl, several_fits (accepts_fits D R s) h2 ht.2 hk⟩
  | .setOf s, i, rem, o, hA, ht, hk => by
    obtain ⟨h, c, vs, _, _, h1, h2, rfl⟩ := hA
    exact ⟨h1, ⟨rfl, rfl, rfl⟩, vs, rfl, several_fits (accepts_fits D R s) h2 ht.2 hk⟩
  | .sequence l, i, rem, o, hA, ht, hk => by
    obtain ⟨h, c, rem', vs, _, _, h2, rfl⟩ := hA
    exact ⟨⟨rfl, rfl, rfl⟩, vs, rfl, acceptsAll_fits D R l _ _ vs h2 ht.2 hk⟩
  | .set l, i, rem, o, hA, ht, hk => by
    obtain ⟨h, c, rem', vs, _, _, h2, rfl⟩ := hA
    exact ⟨⟨rfl, rfl, rfl⟩, vs, rfl, acceptsAll_fits D R l _ _ vs h2 ht.2 hk⟩
  | .explicit tag s, i, rem, o, hA, ht, hk => by
    obtain ⟨h, c, rem', o', _, h1, h2, h3, h4, rfl⟩ := hA
    exact ⟨h1, h2, h3, o', rfl, accepts_fits D R s _ _ o' h4 ht.2 hk⟩
  | .optional s, i, rem, o, hA, ht, hk => by
    rcases hA with ⟨o', h1, rfl⟩ | ⟨_, _, rfl⟩
    · refine ⟨o', rfl, ⟨rfl, rfl, rfl⟩, accepts_fits D R s _ _ o' h1 ?_ hk⟩
      obtain ⟨h', x'⟩ := o'
      exact ⟨ht.1, ht.2⟩
    · exact absurd hk id
  | .explicitOptional tag s, i, rem, o, hA, ht, hk => by
    rcases hA with ⟨h, c, rem', o', _, h1, h2, h3, h4, rfl⟩ | ⟨_, _, rfl⟩
    · exact ⟨h1, h2, h3, h, o', rfl, ⟨rfl, rfl, rfl⟩, accepts_fits D R s _ _ o' h4 ht.2 hk⟩
    · exact absurd hk id
theorem acceptsAll_fits (D : Deps) (R : Rules) : ∀ (l : List Schema) (i rem : Bytes) (vs : List BerObject),
    AcceptsAll D R l i rem vs → TagsOkL vs → KeepsL D R vs → FitsAll D R l vs
  | [], i, rem, vs, hA, _, _ => hA.2
  | s :: l, i, rem, vs, hA, ht, hk => by
    obtain ⟨mid, v, vs', h1, h2, rfl⟩ := hA
    exact ⟨v, vs', rfl, accepts_fits D R s _ _ v h1 ht.1 hk.1, acceptsAll_fits D R l _ _ vs' h2 ht.2 hk.2⟩
end

/-! ## Lemmas: what survives fits -/

theorem denotes_wf_written {D : Deps} {d : Nat} {h h' : Header} {v : Bytes} {x x' : Content} (hD : Denotes D d h' v x')
    (hk : SameKind h' h) (ht : h.tag ≤ 30) (hx : eraseC x' = eraseC x) (hv : EncodesC D x v) (hl : v.length < 2 ^ 64) :
    Wf D d (.mk h x) := by
  cases hD with
  | leaf d _ _ _ hL => exact .leaf d h x ht (leaf_wf hL hk ht hx hv)
  | sequence d _ items g1 g2 g3 g4 g5 =>
    cases x <;> simp only [eraseC, reduceCtorEq, Content.sequence.injEq] at hx
    rename_i l
    refine .sequence d h l (hk.1 ▸ g1) (hk.2.2 ▸ g2) (hk.2.1 ▸ g3)
      (items_wf hx (pieces_items g4 hv rfl hl) fun it hit o ho hEo => encodes_wf (g5 it hit) ho ?_ (g4 it hit) hEo)
    have : it.bytes.length ≤ (items.map Item.bytes).flatten.length := length_le_flatten (List.mem_map_of_mem hit)
    rw [← List.flatMap_def] at this
    omega
  | set d _ items g1 g2 g3 g4 g5 =>
    cases x <;> simp only [eraseC, reduceCtorEq, Content.set.injEq] at hx
    rename_i l
    refine .set d h l (hk.1 ▸ g1) (hk.2.2 ▸ g2) (hk.2.1 ▸ g3)
      (items_wf hx (pieces_items g4 hv rfl hl) fun it hit o ho hEo => encodes_wf (g5 it hit) ho ?_ (g4 it hit) hEo)
    have : it.bytes.length ≤ (items.map Item.bytes).flatten.length := length_le_flatten (List.mem_map_of_mem hit)
    rw [← List.flatMap_def] at this
    omega

theorem framedBy_unique {R R' : Rules} {i rem rem' c c' : Bytes} {h h' : Header} (hF : FramedBy R i rem h c)
    (hF' : FramedBy R' i rem' h' c') : rem = rem' ∧ h = h' ∧ c = c' := by
  have hb : FramedBy .ber i rem h c := by
    cases R
    · exact hF
    · exact framedBy_der_ber hF
  have hb' : FramedBy .ber i rem' h' c' := by
    cases R'
    · exact hF'
    · exact framedBy_der_ber hF'
  obtain ⟨e, rfl, h1⟩ := hb
  obtain ⟨e', h2, h3⟩ := hb'
  obtain ⟨h4, h5, h6, h7⟩ := framed_unique h1 h3 h2
  exact ⟨h5, h6, h7⟩

theorem eraseH_sameKind {h h' : Header} (hk : eraseH h = eraseH h') : SameKind h h' := by
  obtain ⟨c, k, t, l, r⟩ := h
  obtain ⟨c', k', t', l', r'⟩ := h'
  simp only [eraseH, Header.mk.injEq] at hk
  exact ⟨hk.1, hk.2.1, hk.2.2.1⟩

theorem typedBy_survives {D : Deps} {R : Rules} {tag t : Nat} {o o' : BerObject} {e rest mid : Bytes}
    (hA : TypedBy D R tag t (e ++ rest) mid o') (he : encodeObject D o = .ok e) (hl : e.length < 2 ^ 32)
    (hx : erase o' = erase o) : mid = rest ∧ o.header.tag = tag ∧ FitsAs D R t o.header.constructed o.content := by
  obtain ⟨h, x⟩ := o
  obtain ⟨ho, xo⟩ := o'
  obtain ⟨c, hF, h1, _, h2, h3⟩ := hA
  simp only [BerObject.header, BerObject.content, erase, BerObject.mk.injEq] at *
  obtain ⟨v, h', h4, h5, h6, h7, h8⟩ := encode_framedBy he hl
  obtain ⟨rfl, rfl, rfl⟩ := framedBy_unique hF (h8 R rest)
  have hv := (encodeContent_iff D x c (by omega)).1 h4
  refine ⟨rfl, h6.2.2.symm.trans h1, ?_, ?_⟩
  · rcases Nat.lt_or_ge 30 t with hlt | hle
    · refine .inr ⟨hlt, ?_⟩
      have : ∃ a, xo = .unknown a ∧ SameKind a.header (Header.new .universal ho.constructed t (.definite 0)) := by
        cases h3 with
        | sequence _ _ _ _ g => simp only [Header.new] at g; omega
        | set _ _ _ _ g => simp only [Header.new] at g; omega
        | leaf d _ _ _ hL =>
          cases xo with
          | unknown a => exact ⟨a, rfl, by rw [hL.1]; exact ⟨rfl, rfl, rfl⟩⟩
          | str k s =>
            have h5 := hL.2.1
            simp only [Header.new] at h5
            cases k <;> simp [strTag] at h5 <;> omega
          | _ =>
            first
            | exact hL.elim
            | (have h5 := hL.2
               simp only [Header.new] at h5
               omega)
            | (have h5 := hL.2.1
               simp only [Header.new] at h5
               omega)
      obtain ⟨a, rfl, hk⟩ := this
      cases x <;> simp only [eraseC, reduceCtorEq, and_false, Content.unknown.injEq, Any.mk.injEq] at hx
      rename_i b
      refine ⟨b, rfl, ?_⟩
      have := eraseH_sameKind hx.2.1
      exact ⟨this.1.symm.trans hk.1, (this.2.1.symm.trans hk.2.1).trans h6.2.1, this.2.2.symm.trans hk.2.2⟩
    · refine .inl ⟨hle, ?_⟩
      exact denotes_wf_written h3 ⟨rfl, h6.2.1, rfl⟩ hle hx.2 hv (by omega)
  · rintro rfl v' hl' hv'
    have := (encodeContent_iff D x v' hl').2 hv'
    rw [h4] at this
    cases this
    exact h2 rfl

mutual
/-- Nothing in the object is an absent option. -/
def Spec.Present : BerObject → Prop
  | .mk _ c => PresentC c
/-- The same for contents. -/
def Spec.PresentC : Content → Prop
  | .sequence l | .set l => PresentL l
  | .optionalSome o => Present o
  | .optionalNone => False
  | .tagged _ _ o => Present o
  | _ => True
/-- The same for lists. -/
def Spec.PresentL : List BerObject → Prop
  | [] => True
  | o :: l => Present o ∧ PresentL l
end

theorem several_survives {D : Deps} {R : Rules} {s : Schema}
    (ih : ∀ o o' e rest mid, Accepts D R s (e ++ rest) mid o' → encodeObject D o = .ok e → e.length < 2 ^ 32 →
      erase o' = erase o → Present o → mid = rest ∧ Fits D R s o) {c : Bytes} {vs' : List BerObject}
    (h : Several (Accepts D R s) c vs') : ∀ vs, encodeList D vs = .ok c → c.length < 2 ^ 32 → eraseL vs' = eraseL vs →
      PresentL vs → ∀ o ∈ vs, Fits D R s o := by
  induction h with
  | nil =>
    intro vs _ _ hx _ o ho
    cases vs with
    | nil => simp at ho
    | cons _ _ => simp [eraseL] at hx
  | cons i rem o' os' h1 _ ih' =>
    intro vs he hl hx hp o ho
    cases vs with
    | nil => simp at ho
    | cons v vs =>
      simp only [eraseL, List.cons.injEq] at hx
      rw [encodeList] at he
      obtain ⟨a, h3, h4⟩ := bind_eq_ok.1 he
      obtain ⟨b, h5, h6⟩ := bind_eq_ok.1 h4
      simp only [ok.injEq] at h6
      subst h6
      simp only [List.length_append] at hl
      obtain ⟨rfl, h7⟩ := ih v o' a b rem h1 h3 (by omega) hx.1 hp.1
      rcases List.mem_cons.1 ho with rfl | ho
      · exact h7
      · exact ih' vs h5 (by omega) hx.2 hp.2 o ho

theorem erase_seq {h : Header} {x : Content} {vs : List BerObject} (hx : erase (.fromSeq vs) = erase (.mk h x)) :
    SameKind h (Header.new .universal true 16 (.definite 0)) ∧ ∃ l, x = .sequence l ∧ eraseL vs = eraseL l := by
  simp only [BerObject.fromSeq, BerObject.fromObj, erase, BerObject.mk.injEq] at hx
  obtain ⟨h1, h2⟩ := hx
  refine ⟨eraseH_sameKind (h1.symm.trans (sameKind_eraseH ⟨rfl, rfl, rfl⟩)), ?_⟩
  cases x <;> simp only [eraseC, reduceCtorEq, Content.sequence.injEq] at h2
  exact ⟨_, rfl, h2⟩

theorem erase_set {h : Header} {x : Content} {vs : List BerObject} (hx : erase (.fromSet vs) = erase (.mk h x)) :
    SameKind h (Header.new .universal true 17 (.definite 0)) ∧ ∃ l, x = .set l ∧ eraseL vs = eraseL l := by
  simp only [BerObject.fromSet, BerObject.fromObj, erase, BerObject.mk.injEq] at hx
  obtain ⟨h1, h2⟩ := hx
  refine ⟨eraseH_sameKind (h1.symm.trans (sameKind_eraseH ⟨rfl, rfl, rfl⟩)), ?_⟩
  cases x <;> simp only [eraseC, reduceCtorEq, Content.set.injEq] at h2
  exact ⟨_, rfl, h2⟩

theorem erase_header {o o' : BerObject} (h : erase o = erase o') : SameKind o.header o'.header := by
  obtain ⟨h1, x⟩ := o
  obtain ⟨h2, x'⟩ := o'
  simp only [erase, BerObject.mk.injEq] at h
  exact eraseH_sameKind h.1

mutual
theorem survives_fits (D : Deps) (R : Rules) : ∀ (s : Schema) (o o' : BerObject) (e rest mid : Bytes),
    Accepts D R s (e ++ rest) mid o' → encodeObject D o = .ok e → e.length < 2 ^ 32 → erase o' = erase o → Present o →
      mid = rest ∧ Fits D R s o
  | .any, .mk h x, .mk ho xo, e, rest, mid, hA, he, hl, hx, _ => by
    obtain ⟨c, hF, hA⟩ := hA
    simp only [BerObject.header, BerObject.content, erase, BerObject.mk.injEq] at *
    obtain ⟨v, h', h4, h5, h6, h7, h8⟩ := encode_framedBy he hl
    obtain ⟨rfl, rfl, rfl⟩ := framedBy_unique hF (h8 R rest)
    have hv := (encodeContent_iff D x c (by omega)).1 h4
    have ht : h.tag ≤ 30 := by
      rw [encodeObject] at he
      obtain ⟨_, _, h2⟩ := bind_eq_ok.1 he
      obtain ⟨_, h3, _⟩ := bind_eq_ok.1 h2
      exact (encodeHeader_ok.1 h3).1
    cases R with
    | ber => exact ⟨rfl, denotes_wf_written hA h6 ht hx.2 hv (by omega), by simp⟩
    | der =>
      obtain ⟨_, ⟨h1, rfl⟩ | ⟨h1, h2, h3⟩⟩ := hA
      · refine ⟨rfl, denotes_wf_written (h' := ho) (x' := .unknown ⟨ho, c⟩) (.leaf 49 _ _ _ ⟨rfl, .inl h1⟩) h6 ht hx.2 hv
          (by omega), fun _ h => absurd (h6.1.trans h) h1⟩
      · refine ⟨rfl, denotes_wf_written h3 ⟨h1.symm.trans h6.1, h6.2.1, h6.2.2⟩ ht hx.2 hv (by omega), ?_⟩
        intro _ _ v' hl' hv'
        have := (encodeContent_iff D x v' hl').2 hv'
        rw [h4] at this
        cases this
        simp only [BerObject.header]
        rw [← h6.2.2]
        exact h2
  | .typed tag, o, o', e, rest, mid, hA, he, hl, hx, _ => typedBy_survives hA he hl hx
  | .choice tag tags, o, o', e, rest, mid, hA, he, hl, hx, _ => by
    obtain ⟨t, hm, hA⟩ := hA
    obtain ⟨h1, rfl, h2⟩ := typedBy_survives hA he hl hx
    exact ⟨h1, hm, h2⟩
  | .implicit tag type, o, o', e, rest, mid, hA, he, hl, hx, _ => typedBy_survives hA.1 he hl hx
  | .sequenceOf s, .mk h x, o', e, rest, mid, hA, he, hl, hx, hp => by
    obtain ⟨hh, c, vs, hF, _, h1, h2, rfl⟩ := hA
    obtain ⟨h3, l, rfl, h4⟩ := erase_seq hx
    obtain ⟨v, h', h5, h6, h7, h8, h9⟩ := encode_framedBy he hl
    obtain ⟨rfl, rfl, rfl⟩ := framedBy_unique hF (h9 R rest)
    exact ⟨rfl, h1, h3, l, rfl, several_survives (survives_fits D R s) h2 l h5 (by omega) h4 hp⟩
  | .setOf s, .mk h x, o', e, rest, mid, hA, he, hl, hx, hp => by
    obtain ⟨hh, c, vs, hF, _, h1, h2, rfl⟩ := hA
    obtain ⟨h3, l, rfl, h4⟩ := erase_set hx
    obtain ⟨v, h', h5, h6, h7, h8, h9⟩ := encode_framedBy he hl
    obtain ⟨rfl, rfl, rfl⟩ := framedBy_unique hF (h9 R rest)
    exact ⟨rfl, h1, h3, l, rfl, several_survives (survives_fits D R s) h2 l h5 (by omega) h4 hp⟩
  | .sequence ss, .mk h x, o', e, rest, mid, hA, he, hl, hx, hp => by
    obtain ⟨hh, c, rem', vs, hF, _, h2, rfl⟩ := hA
    obtain ⟨h3, l, rfl, h4⟩ := erase_seq hx
    obtain ⟨v, h', h5, h6, h7, h8, h9⟩ := encode_framedBy he hl
    obtain ⟨rfl, rfl, rfl⟩ := framedBy_unique hF (h9 R rest)
    exact ⟨rfl, h3, l, rfl, survivesAll_fits D R ss l vs c [] rem' (by simpa using h2) h5 (by omega) h4 hp⟩
  | .set ss, .mk h x, o', e, rest, mid, hA, he, hl, hx, hp => by
    obtain ⟨hh, c, rem', vs, hF, _, h2, rfl⟩ := hA
    obtain ⟨h3, l, rfl, h4⟩ := erase_set hx
    obtain ⟨v, h', h5, h6, h7, h8, h9⟩ := encode_framedBy he hl
    obtain ⟨rfl, rfl, rfl⟩ := framedBy_unique hF (h9 R rest)
    exact ⟨rfl, h3, l, rfl, survivesAll_fits D R ss l vs c [] rem' (by simpa using h2) h5 (by omega) h4 hp⟩
  | .explicit tag s, .mk h x, o', e, rest, mid, hA, he, hl, hx, hp => by
    obtain ⟨hh, c, rem', o1, hF, h1, h2, h3, h4, rfl⟩ := hA
    obtain ⟨v, h', h5, h6, h7, h8, h9⟩ := encode_framedBy he hl
    obtain ⟨rfl, rfl, rfl⟩ := framedBy_unique hF (h9 R rest)
    simp only [erase, BerObject.mk.injEq] at hx
    cases x <;> simp only [eraseC, reduceCtorEq, and_false, Content.tagged.injEq] at hx
    rename_i k n o2
    obtain ⟨_, rfl, rfl, h10⟩ := hx
    refine ⟨rfl, fun h => h1 (h7.1.trans h), h7.2.2.symm.trans h2, h7.2.1.symm.trans h3, o2, ?_, ?_⟩
    · simp only [BerObject.content, BerObject.header]; rw [h7.1]
    · exact (survives_fits D R s o2 o1 c [] rem' (by simpa using h4) h5 (by omega) h10 hp).2
  | .optional s, .mk h x, o', e, rest, mid, hA, he, hl, hx, hp => by
    rcases hA with ⟨o1, h1, rfl⟩ | ⟨_, _, rfl⟩
    · simp only [erase, BerObject.mk.injEq] at hx
      cases x <;> simp only [eraseC, reduceCtorEq, and_false, Content.optionalSome.injEq] at hx
      rename_i o2
      obtain ⟨h2, h3⟩ := hx
      have h4 := eraseH_sameKind h2
      have h5 := erase_header h3
      have h6 : SameKind h o2.header := ⟨h4.1.symm.trans h5.1, h4.2.1.symm.trans h5.2.1, h4.2.2.symm.trans h5.2.2⟩
      rw [encode_optional h6] at he
      obtain ⟨rfl, h7⟩ := survives_fits D R s o2 o1 e rest mid h1 he hl h3 hp
      exact ⟨rfl, o2, rfl, h6, h7⟩
    · simp only [erase, BerObject.fromObj, BerObject.mk.injEq] at hx
      cases x <;> simp only [eraseC, reduceCtorEq, and_false] at hx
      exact absurd hp id
  | .explicitOptional tag s, .mk h x, o', e, rest, mid, hA, he, hl, hx, hp => by
    rcases hA with ⟨hh, c, rem', o1, hF, h1, h2, h3, h4, rfl⟩ | ⟨_, _, rfl⟩
    · simp only [erase, BerObject.mk.injEq] at hx
      cases x <;> simp only [eraseC, reduceCtorEq, and_false, Content.optionalSome.injEq] at hx
      rename_i o2
      obtain ⟨h5, h6⟩ := hx
      obtain ⟨h2', x2⟩ := o2
      simp only [erase, BerObject.mk.injEq] at h6
      cases x2 <;> simp only [eraseC, reduceCtorEq, and_false, Content.tagged.injEq] at h6
      rename_i k n o3
      obtain ⟨h7, rfl, rfl, h8⟩ := h6
      have g1 := eraseH_sameKind h5
      have g2 := eraseH_sameKind h7
      have g3 : SameKind h h2' := ⟨g1.1.symm.trans g2.1, g1.2.1.symm.trans g2.2.1, g1.2.2.symm.trans g2.2.2⟩
      rw [encode_optional (o := .mk h2' _) g3] at he
      obtain ⟨v, h', h9, h10, h11, h12, h13⟩ := encode_framedBy he hl
      obtain ⟨rfl, rfl, rfl⟩ := framedBy_unique hF (h13 R rest)
      refine ⟨rfl, fun h => h1 (g1.1.trans h), g1.2.2.symm.trans h2, g1.2.1.symm.trans h3, h2', o3, ?_, g3, ?_⟩
      · simp only [BerObject.content, BerObject.header]; rw [g1.1]
      · exact (survives_fits D R s o3 o1 c [] rem' (by simpa using h4) h9 (by omega) h8 hp).2
    · simp only [erase, BerObject.fromObj, BerObject.mk.injEq] at hx
      cases x <;> simp only [eraseC, reduceCtorEq, and_false] at hx
      exact absurd hp id
theorem survivesAll_fits (D : Deps) (R : Rules) : ∀ (ss : List Schema) (l vs : List BerObject) (v rest mid : Bytes),
    AcceptsAll D R ss (v ++ rest) mid vs → encodeList D l = .ok v → v.length < 2 ^ 32 → eraseL vs = eraseL l →
      PresentL l → FitsAll D R ss l
  | [], l, vs, v, rest, mid, hA, he, hl, hx, hp => by
    obtain ⟨_, rfl⟩ := hA
    cases l with
    | nil => rfl
    | cons _ _ => simp [eraseL] at hx
  | s :: ss, l, vs, v, rest, mid, hA, he, hl, hx, hp => by
    obtain ⟨m, v1, vs', h1, h2, rfl⟩ := hA
    cases l with
    | nil => simp [eraseL] at hx
    | cons o l =>
      simp only [eraseL, List.cons.injEq] at hx
      rw [encodeList] at he
      obtain ⟨a, h3, h4⟩ := bind_eq_ok.1 he
      obtain ⟨b, h5, h6⟩ := bind_eq_ok.1 h4
      simp only [ok.injEq] at h6
      subst h6
      simp only [List.length_append] at hl
      rw [List.append_assoc] at h1
      obtain ⟨rfl, h7⟩ := survives_fits D R s o v1 a (b ++ rest) m h1 h3 (by omega) hx.1 hp.1
      exact ⟨o, l, rfl, h7, survivesAll_fits D R ss l vs' b rest mid h2 h5 (by omega) hx.2 hp.2⟩
end

/-! ## C108 -/

/-- C108 in full: what a composed parser read is read again, by the same parser, from what `to_vec` writes for it. -/
def C108Statement : Prop :=
  ∀ (D : Deps) (R : Rules) (s : Schema) (i rem : Bytes) (o : BerObject), TimesKnown D → s.run D R i = .ok (rem, o) →
    TagsOk o → ∃ e, toVec D o = .ok e ∧ (e.length < 2 ^ 32 → ∃ o', s.run D R e = .ok ([], o') ∧ erase o' = erase o)

/-- `SEQUENCE { INTEGER, [0] EXPLICIT BOOLEAN }`. -/
theorem fits_small : Fits Tests.D0 .der (.sequence [.typed 2, .explicit 0 (.typed 1)])
    (.fromSeq [.fromObj (.integer [5]), .mk ⟨.contextSpecific, true, 0, .definite 0, none⟩
      (.tagged .contextSpecific 0 (.fromObj (.boolean true)))]) := by
  refine ⟨⟨rfl, rfl, rfl⟩, _, rfl, _, _, rfl, ⟨rfl, .inl ⟨by decide, .leaf 49 _ _ (by decide) ⟨rfl, rfl⟩⟩, ?_⟩, _, _, rfl,
    ⟨by decide, rfl, rfl, _, rfl, rfl, .inl ⟨by decide, .leaf 49 _ _ (by decide) ⟨rfl, rfl⟩⟩, ?_⟩, rfl⟩
  · rintro - v - hv
    cases hv
    exact ⟨by decide, by decide, by simp, by simp⟩
  · rintro - v - hv
    cases hv
    exact ⟨fun _ => .inr rfl, by simp, by simp, by simp⟩

/-- C108: every value of the described type (`Fits`) is written by `to_vec`, and the composed parser reads what was
written and gives back the value, whatever follows. -/
theorem C108_written_read (D : Deps) (hT : TimesKnown D) (R : Rules) (s : Schema) (o : BerObject) (e : Bytes)
    (hf : Fits D R s o) (he : toVec D o = .ok e) (hl : e.length < 2 ^ 32) (rest : Bytes) :
    ∃ o', s.run D R (e ++ rest) = .ok (rest, o') ∧ erase o' = erase o := by
  obtain ⟨o', h1, h2⟩ := fits_written D R s o e hf he hl rest
  exact ⟨o', (C96_exact D hT R s _ _ _).2 h1, h2⟩

example := C108_written_read Tests.D0 timesKnown_D0 _ _ _ [0x30, 0x08, 0x02, 0x01, 0x05, 0xa0, 0x03, 0x01, 0x01, 0xff] fits_small
  (by decide +kernel) (by decide) [9]

/-- C108: and among the objects without absent options these are the only ones that are read back. -/
theorem C108_exact_partial (D : Deps) (hT : TimesKnown D) (R : Rules) (s : Schema) (o : BerObject) (e : Bytes)
    (hp : Present o) (he : toVec D o = .ok e) (hl : e.length < 2 ^ 32) :
    (∃ o', s.run D R e = .ok ([], o') ∧ erase o' = erase o) ↔ Fits D R s o := by
  constructor
  · rintro ⟨o', h1, h2⟩
    exact (survives_fits D R s o o' e [] [] (by
      rw [List.append_nil]; exact (C96_exact D hT R s _ _ _).1 h1) he hl h2 hp).2
  · intro hf
    simpa using C108_written_read D hT R s o e hf he hl []

example := (C108_exact_partial Tests.D0 timesKnown_D0 .der _ (.fromSeq [.fromObj (.integer [5])]) [0x30, 0x03, 0x02, 0x01, 0x05]
  (by simp [Present, PresentC, PresentL, BerObject.fromSeq, BerObject.fromObj]) (by decide +kernel) (by decide)).1 ⟨_, (rfl : (Schema.sequence [.typed 2]).run _ _ _ = _), rfl⟩

/-- C108: what a composed parser reads is a value of the described type, if it has no absent options, its tag numbers can
be written and its times are read back from their written form. -/
theorem C108_fits_partial (D : Deps) (hT : TimesKnown D) (R : Rules) (s : Schema) (i rem : Bytes) (o : BerObject)
    (h : s.run D R i = .ok (rem, o)) (ht : TagsOk o) (hk : Keeps D R o) : Fits D R s o :=
  accepts_fits D R s i rem o ((C96_exact D hT R s i rem o).1 h) ht hk

example := C108_fits_partial Tests.D0 timesKnown_D0 .der (.sequence [.typed 2, .explicit 0 (.typed 1)])
  [0x30, 0x08, 0x02, 0x01, 0x05, 0xa0, 0x03, 0x01, 0x01, 0xff, 9] [9] _ rfl
  (by simp [TagsOk, TagsOkC, TagsOkL, BerObject.fromSeq, BerObject.fromObj, Header.new, Content.tag, Tag.sequence])
  (by simp [Keeps, KeepsC, KeepsL, BerObject.fromSeq, BerObject.fromObj])

/-- C108, what holds: without absent options and times that change when they are written, what a composed parser read is
read again from what `to_vec` writes, and is written as the same octets again.  Missing: absent options and such times. -/
theorem C108_reread_partial (D : Deps) (hT : TimesKnown D) (R : Rules) (s : Schema) (i rem : Bytes) (o : BerObject)
    (h : s.run D R i = .ok (rem, o)) (ht : TagsOk o) (hk : Keeps D R o) :
    ∃ e, toVec D o = .ok e ∧ (e.length < 2 ^ 32 → ∀ rest, ∃ o', s.run D R (e ++ rest) = .ok (rest, o') ∧
      erase o' = erase o ∧ toVec D o' = .ok e) := by
  obtain ⟨e, he⟩ := (encodeObject_total D o).1 ht
  refine ⟨e, he, fun hl rest => ?_⟩
  obtain ⟨o', h1, h2⟩ := C108_written_read D hT R s o e (C108_fits_partial D hT R s i rem o h ht hk) he hl rest
  exact ⟨o', h1, h2, by rw [toVec, ← encodeObject_erase, h2, encodeObject_erase]; exact he⟩

example := C108_reread_partial Tests.D0 timesKnown_D0 .der (.sequence [.typed 2, .explicit 0 (.typed 1)])
  [0x30, 0x08, 0x02, 0x01, 0x05, 0xa0, 0x03, 0x01, 0x01, 0xff, 9] [9] _ rfl
  (by simp [TagsOk, TagsOkC, TagsOkL, BerObject.fromSeq, BerObject.fromObj, Header.new, Content.tag, Tag.sequence])
  (by simp [Keeps, KeepsC, KeepsL, BerObject.fromSeq, BerObject.fromObj])

/-- C108 is false with absent options: they are written as the octets `00 00`, which the parser does not expect. -/
theorem C108_absent_counterexample (D : Deps) :
    (Schema.sequence [.optional (.typed 1), .typed 2]).run D .ber [0x30, 0x03, 0x02, 0x01, 0x05] =
      .ok ([], .fromSeq [.fromObj .optionalNone, .mk ⟨.universal, false, 2, .definite 1, some [0x02]⟩ (.integer [5])]) ∧
    toVec D (.fromSeq [.fromObj .optionalNone, .mk ⟨.universal, false, 2, .definite 1, some [0x02]⟩ (.integer [5])]) =
      .ok [0x30, 0x05, 0x00, 0x00, 0x02, 0x01, 0x05] ∧
    (Schema.sequence [.optional (.typed 1), .typed 2]).run D .ber [0x30, 0x05, 0x00, 0x00, 0x02, 0x01, 0x05] =
      .err (.error (.unexpectedTag (some 2) 0)) := ⟨by rfl, by rfl, by rfl⟩

/-- C108 as stated is false. -/
theorem C108_full_counterexample : ¬ C108Statement := fun h => by
  obtain ⟨h1, h2, h3⟩ := C108_absent_counterexample Tests.D0
  obtain ⟨e, h4, h5⟩ := h Tests.D0 .ber _ _ _ _ timesKnown_D0 h1 ⟨by decide, ⟨by decide, trivial⟩, ⟨by decide, trivial⟩, trivial⟩
  rw [h2] at h4
  cases h4
  obtain ⟨o', h6, _⟩ := h5 (by decide)
  rw [h3] at h6
  cases h6

/-- A type with all kinds of components: `SEQUENCE { [0] EXPLICIT INTEGER, BOOLEAN OPTIONAL, [1] IMPLICIT OCTET STRING,
[2] EXPLICIT SET OF ANY OPTIONAL, CHOICE { NULL, INTEGER } }`. -/
def Tests.mixed : Schema :=
  .sequence [.explicit 0 (.typed 2), .optional (.typed 1), .implicit 1 4, .explicitOptional 2 (.setOf .any), .choice 5 [2]]

def Tests.mixedOctets : Bytes :=
  [0x30, 0x80, 0xa0, 0x04, 0x02, 0x81, 0x01, 0x07, 0x01, 0x01, 0x33, 0x81, 0x01, 0xee, 0xa2, 0x04, 0x31, 0x02, 0x05, 0x00,
    0x05, 0x00, 0x00, 0x00]

/-- All options are present: the theorem applies, and this is what is written. -/
example : ∃ o, Tests.mixed.run Tests.D0 .ber Tests.mixedOctets = .ok ([], o) ∧ TagsOk o ∧ Keeps Tests.D0 .ber o ∧
    toVec Tests.D0 o = .ok [0x30, 0x13, 0xa0, 0x03, 0x02, 0x01, 0x07, 0x01, 0x01, 0xff, 0x81, 0x01, 0xee, 0xa2, 0x04,
      0x31, 0x02, 0x05, 0x00, 0x05, 0x00] :=
  ⟨_, by rfl, by simp [TagsOk, TagsOkC, TagsOkL, TagsOkInner, BerObject.fromSeq, BerObject.fromSet, BerObject.fromObj, Header.new,
    Content.tag, Tag.sequence, Tag.set],
    by simp [Keeps, KeepsC, KeepsL, BerObject.fromSeq, BerObject.fromSet, BerObject.fromObj], by decide +kernel⟩

end Verif
