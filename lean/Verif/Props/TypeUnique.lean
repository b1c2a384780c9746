import Verif.Props.TypeValue
import Verif.Props.ValueMeaning
/-!
# The value of a type that an object has and that octets encode: C127
-/
namespace Verif
open Outcome Spec

theorem each_mem {P : TValue → Bytes → Prop} {ts : List TValue} {c : Bytes} (H : Each P ts c) : ∀ x ∈ ts, ∃ e, P x e := by
  induction H with
  | nil => simp
  | cons t ts e c h _ ih =>
    intro x hx
    rcases List.mem_cons.1 hx with rfl | hx
    · exact ⟨e, h⟩
    · exact ih x hx

mutual
/-- What encodings encode are values of the type. -/
theorem codes_ofType {D : Deps} {R : Rules} : (s : Schema) → {t : TValue} → {e : Bytes} → TypeCodes D R s t e → OfType s t
  | .any, _, _, ⟨v, h, _⟩ => ⟨v, h⟩
  | .typed _, _, _, ⟨v, h, _, h1, h2⟩ => ⟨v, h, h1, h2⟩
  | .choice _ _, _, _, ⟨v, h, _, h1, h2⟩ => ⟨v, h, h1, h2⟩
  | .implicit _ _, _, _, ⟨v, _, cls, h, _, h1, h2, _, _, _, _, _, _, _, _, h3, _⟩ => ⟨v, cls, h, h1, h2, h3⟩
  | .sequenceOf s, _, _, ⟨ts, _, h, h1, _⟩ => ⟨ts, h, fun x hx => by
      obtain ⟨e, he⟩ := each_mem h1 x hx
      exact codes_ofType s he⟩
  | .setOf s, _, _, ⟨ts, _, h, h1, _⟩ => ⟨ts, h, fun x hx => by
      obtain ⟨e, he⟩ := each_mem h1 x hx
      exact codes_ofType s he⟩
  | .sequence l, _, _, ⟨ts, _, h, h1, _⟩ => ⟨ts, h, codes_ofTypes l h1⟩
  | .set l, _, _, ⟨ts, _, h, h1, _⟩ => ⟨ts, h, codes_ofTypes l h1⟩
  | .explicit _ s, _, _, ⟨t', _, cls, h, hc, h1, _⟩ => ⟨t', cls, h, hc, codes_ofType s h1⟩
  | .optional s, _, _, H => by
    rcases H with ⟨h, _⟩ | ⟨t', h, h1⟩
    · exact .inl h
    · exact .inr ⟨t', h, codes_ofType s h1⟩
  | .explicitOptional _ s, _, _, H => by
    rcases H with ⟨h, _⟩ | ⟨t', _, cls, h, hc, h1, _⟩
    · exact .inl h
    · exact .inr ⟨t', cls, h, hc, codes_ofType s h1⟩
theorem codes_ofTypes {D : Deps} {R : Rules} : (l : List Schema) → {ts : List TValue} → {c : Bytes} →
    TypeCodesAll D R l ts c → OfTypes l ts
  | [], _, _, ⟨h, _⟩ => h
  | s :: l, _, _, ⟨t, ts', _, _, h, _, h1, h2⟩ => ⟨t, ts', h, codes_ofType s h1, codes_ofTypes l h2⟩
end

theorem hasT_sequence {o : BerObject} {ts : List TValue} (H : HasT o (.sequence ts)) :
    ∃ os, o.content.asSequence = .ok os ∧ AllHave os ts := by
  generalize ht : TValue.sequence ts = t at H
  cases H with
  | sequence _ ps _ _ h3 h4 => cases ht; exact ⟨_, h3, ps, rfl, rfl, h4⟩
  | _ => cases ht

theorem hasT_set {o : BerObject} {ts : List TValue} (H : HasT o (.set ts)) :
    ∃ os, o.content.asSet = .ok os ∧ AllHave os ts := by
  generalize ht : TValue.set ts = t at H
  cases H with
  | set _ ps _ _ h3 h4 => cases ht; exact ⟨_, h3, ps, rfl, rfl, h4⟩
  | _ => cases ht

theorem hasT_tagged {o : BerObject} {cls : Class} {tag : Nat} {t : TValue} (H : HasT o (.tagged cls tag t)) :
    ∃ o', o.content.asTagged = .ok (cls, tag, o') ∧ HasT o' t := by
  cases H with
  | tagged _ o' _ _ _ h1 h2 => exact ⟨o', h1, h2⟩

theorem hasT_present {o : BerObject} {t : TValue} (H : HasT o (.present t)) :
    ∃ o', o.content.asOptional = .ok (some o') ∧ HasT o' t := by
  cases H with
  | present _ o' _ h1 h2 => exact ⟨o', h1, h2⟩

theorem hasT_absent {o : BerObject} (H : HasT o .absent) : o.content.asOptional = .ok none := by
  cases H with
  | absent _ h => exact h

theorem hasT_plain {o : BerObject} {v : Value} (H : HasT o (.plain v)) : HasValue o v := by
  cases H with
  | plain _ _ h => exact h

theorem hasT_retagged {o : BerObject} {cls : Class} {tag : Nat} {v : Value} (H : HasT o (.retagged cls tag v)) :
    o.header.cls = cls ∧ HasValue (untagged v.num o) v := by
  cases H with
  | retagged _ _ _ _ h _ h1 => exact ⟨h, h1⟩

theorem allHave_nil {ts : List TValue} (H : AllHave [] ts) : ts = [] := by
  obtain ⟨ps, h1, rfl, _⟩ := H
  cases ps with
  | nil => rfl
  | cons => cases h1

theorem allHave_cons {o : BerObject} {os : List BerObject} {ts : List TValue} (H : AllHave (o :: os) ts) :
    ∃ t ts', ts = t :: ts' ∧ HasT o t ∧ AllHave os ts' := by
  obtain ⟨ps, h1, rfl, h2⟩ := H
  cases ps with
  | nil => cases h1
  | cons p ps =>
    cases h1
    exact ⟨p.2, _, rfl, h2 p (by simp), ps, rfl, rfl, fun q hq => h2 q (by simp [hq])⟩

theorem each_unique {P : TValue → Prop} (ih : ∀ o t t', P t → P t' → HasT o t → HasT o t' → t = t') :
    ∀ {os : List BerObject} {ts ts' : List TValue}, (∀ x ∈ ts, P x) → (∀ x ∈ ts', P x) → AllHave os ts → AllHave os ts' →
    ts = ts'
  | [], _, _, _, _, h, h' => (allHave_nil h).trans (allHave_nil h').symm
  | o :: os, _, _, hp, hp', h, h' => by
    obtain ⟨t, ts, rfl, h1, h2⟩ := allHave_cons h
    obtain ⟨t', ts', rfl, h1', h2'⟩ := allHave_cons h'
    rw [ih o t t' (hp t (by simp)) (hp' t' (by simp)) h1 h1', each_unique ih (fun x hx => hp x (by simp [hx]))
      (fun x hx => hp' x (by simp [hx])) h2 h2']

mutual
/-- C127: an object has at most one value of a type. -/
theorem C127_one_value : (s : Schema) → (o : BerObject) → (t t' : TValue) → OfType s t → OfType s t' → HasT o t →
    HasT o t' → t = t'
  | .any, o, _, _, ⟨v, rfl⟩, ⟨v', rfl⟩, h, h' => by rw [C123_one_value o v v' (hasT_plain h) (hasT_plain h')]
  | .typed _, o, _, _, ⟨v, rfl, _⟩, ⟨v', rfl, _⟩, h, h' => by rw [C123_one_value o v v' (hasT_plain h) (hasT_plain h')]
  | .choice _ _, o, _, _, ⟨v, rfl, _⟩, ⟨v', rfl, _⟩, h, h' => by
    rw [C123_one_value o v v' (hasT_plain h) (hasT_plain h')]
  | .implicit _ _, o, _, _, ⟨v, cls, rfl, _, h1, _⟩, ⟨v', cls', rfl, _, h1', _⟩, h, h' => by
    obtain ⟨h2, h3⟩ := hasT_retagged h
    obtain ⟨h2', h3'⟩ := hasT_retagged h'
    rw [h1] at h3
    rw [h1'] at h3'
    rw [C123_one_value _ v v' h3 h3', ← h2, h2']
  | .sequenceOf s, o, _, _, ⟨ts, rfl, h1⟩, ⟨ts', rfl, h1'⟩, h, h' => by
    obtain ⟨os, h2, h3⟩ := hasT_sequence h
    obtain ⟨os', h2', h3'⟩ := hasT_sequence h'
    rw [h2] at h2'
    cases h2'
    rw [each_unique (C127_one_value s) h1 h1' h3 h3']
  | .setOf s, o, _, _, ⟨ts, rfl, h1⟩, ⟨ts', rfl, h1'⟩, h, h' => by
    obtain ⟨os, h2, h3⟩ := hasT_set h
    obtain ⟨os', h2', h3'⟩ := hasT_set h'
    rw [h2] at h2'
    cases h2'
    rw [each_unique (C127_one_value s) h1 h1' h3 h3']
  | .sequence l, o, _, _, ⟨ts, rfl, h1⟩, ⟨ts', rfl, h1'⟩, h, h' => by
    obtain ⟨os, h2, h3⟩ := hasT_sequence h
    obtain ⟨os', h2', h3'⟩ := hasT_sequence h'
    rw [h2] at h2'
    cases h2'
    rw [types_unique l os ts ts' h1 h1' h3 h3']
  | .set l, o, _, _, ⟨ts, rfl, h1⟩, ⟨ts', rfl, h1'⟩, h, h' => by
    obtain ⟨os, h2, h3⟩ := hasT_set h
    obtain ⟨os', h2', h3'⟩ := hasT_set h'
    rw [h2] at h2'
    cases h2'
    rw [types_unique l os ts ts' h1 h1' h3 h3']
  | .explicit _ s, o, _, _, ⟨t, cls, rfl, _, h1⟩, ⟨t', cls', rfl, _, h1'⟩, h, h' => by
    obtain ⟨p, h2, h3⟩ := hasT_tagged h
    obtain ⟨p', h2', h3'⟩ := hasT_tagged h'
    rw [h2] at h2'
    cases h2'
    rw [C127_one_value s p t t' h1 h1' h3 h3']
  | .optional s, o, _, _, hs, hs', h, h' => by
    rcases hs with rfl | ⟨t, rfl, h1⟩ <;> rcases hs' with rfl | ⟨t', rfl, h1'⟩
    · rfl
    · obtain ⟨_, h2, _⟩ := hasT_present h'
      rw [hasT_absent h] at h2
      cases h2
    · obtain ⟨_, h2, _⟩ := hasT_present h
      rw [hasT_absent h'] at h2
      cases h2
    · obtain ⟨p, h2, h3⟩ := hasT_present h
      obtain ⟨p', h2', h3'⟩ := hasT_present h'
      rw [h2] at h2'
      cases h2'
      rw [C127_one_value s p t t' h1 h1' h3 h3']
  | .explicitOptional _ s, o, _, _, hs, hs', h, h' => by
    rcases hs with rfl | ⟨t, cls, rfl, _, h1⟩ <;> rcases hs' with rfl | ⟨t', cls', rfl, _, h1'⟩
    · rfl
    · obtain ⟨_, h2, _⟩ := hasT_present h'
      rw [hasT_absent h] at h2
      cases h2
    · obtain ⟨_, h2, _⟩ := hasT_present h
      rw [hasT_absent h'] at h2
      cases h2
    · obtain ⟨p, h2, h3⟩ := hasT_present h
      obtain ⟨p', h2', h3'⟩ := hasT_present h'
      rw [h2] at h2'
      cases h2'
      obtain ⟨q, h4, h5⟩ := hasT_tagged h3
      obtain ⟨q', h4', h5'⟩ := hasT_tagged h3'
      rw [h4] at h4'
      cases h4'
      rw [C127_one_value s q t t' h1 h1' h5 h5']

theorem types_unique : (l : List Schema) → (os : List BerObject) → (ts ts' : List TValue) → OfTypes l ts → OfTypes l ts' →
    AllHave os ts → AllHave os ts' → ts = ts'
  | [], _, _, _, h1, h1', _, _ => h1.trans h1'.symm
  | s :: l, os, _, _, ⟨t, ts, e1, h1, h2⟩, ⟨t', ts', e1', h1', h2'⟩, h, h' => by
    cases os with
    | nil => exact (allHave_nil h).trans (allHave_nil h').symm
    | cons o os =>
      obtain ⟨u, us, rfl, h3, h4⟩ := allHave_cons h
      obtain ⟨u', us', rfl, h3', h4'⟩ := allHave_cons h'
      cases e1
      cases e1'
      rw [C127_one_value s o _ _ h1 h1' h3 h3', types_unique l os _ _ h2 h2' h4 h4']
end

example := C127_one_value (.typed 4) (.mk ⟨.universal, false, 4, .definite 1, some [4]⟩ (.octetString [0xff])) (.plain (.octets [0xff]))
  (.plain (.octets [0xff])) ⟨_, rfl, rfl, rfl⟩ ⟨_, rfl, rfl, rfl⟩ (.plain _ _ (.leaf _ _ rfl rfl rfl)) (.plain _ _ (.leaf _ _ rfl rfl rfl))

/-- C127: no octets encode two values of a type, nor do the encodings of a value begin with those of another one: where one
ends is known.  Missing: types with tags of the same number and different classes. -/
theorem C127_one_encoded_partial (D : Deps) (hT : TimesKnown D) (R : Rules) (s : Schema) (ha : s.Apart Schema.Sees)
    (hs : s.isOptional = false) (t t' : TValue) (e e' r r' : Bytes) (H : TypeCodes D R s t e) (H' : TypeCodes D R s t' e')
    (hl : e.length < 2 ^ 32) (hl' : e'.length < 2 ^ 32) (he : e ++ r = e' ++ r') : t = t' ∧ e = e' ∧ r = r' := by
  obtain ⟨o, h1, h2⟩ := C127_required_partial D hT R s ha hs t e r H hl
  obtain ⟨o', h1', h2'⟩ := C127_required_partial D hT R s ha hs t' e' r' H' hl'
  rw [he, h1'] at h1
  simp only [ok.injEq, Prod.mk.injEq] at h1
  obtain ⟨rfl, rfl⟩ := h1
  exact ⟨C127_one_value s _ t t' (codes_ofType s H) (codes_ofType s H') h2 h2', List.append_cancel_right he, rfl⟩

/-- Both encodings of the example of C127 are of the type. -/
example : OfType (.sequence [.optional (.typed 4), .implicit 0 4])
    (.sequence [.absent, .retagged .contextSpecific 0 (.octets [0xff])]) :=
  ⟨_, rfl, _, _, rfl, .inl rfl, _, _, rfl, ⟨.octets [0xff], .contextSpecific, rfl, rfl, rfl, by simp⟩, rfl⟩

end Verif
