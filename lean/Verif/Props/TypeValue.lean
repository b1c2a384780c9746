import Verif.SpecType
import Verif.Props.ValueBer
import Verif.Props.Schema
import Verif.Props.AnyTag
import Verif.Props.Reform
/-!
# Composed parsers and the values of their ASN.1 type: C127
-/
namespace Verif
open Outcome Spec

/-! ## Elements that encode a value -/

theorem hasValue_tag {o : BerObject} {v : Value} (H : HasValue o v) : o.header.cls = v.cls ∧ o.header.tag = v.num := by
  cases H with
  | leaf _ _ h1 h2 _ => exact ⟨h1, h2⟩
  | sequence _ _ h1 h2 _ _ => exact ⟨h1, h2⟩
  | set _ _ h1 h2 _ _ => exact ⟨h1, h2⟩

theorem hasValue_header {h h' : Header} {x : Content} {v : Value} (H : HasValue (.mk h x) v) (h1 : h'.cls = h.cls)
    (h2 : h'.tag = h.tag) (h3 : h'.constructed = h.constructed) : HasValue (.mk h' x) v := by
  generalize ho : BerObject.mk h x = o at H
  cases H with
  | leaf _ _ a1 a2 a3 =>
    subst ho
    refine .leaf _ _ (h1.trans a1) (h2.trans a2) ?_
    cases v
    case other => exact ⟨a3.1, h3.trans a3.2.1, a3.2.2⟩
    all_goals exact a3
  | sequence _ ps a1 a2 a3 a4 => subst ho; exact .sequence _ ps (h1.trans a1) (h2.trans a2) a3 a4
  | set _ ps a1 a2 a3 a4 => subst ho; exact .set _ ps (h1.trans a1) (h2.trans a2) a3 a4

theorem value_known {o : BerObject} {v : Value} (H : HasValue o v) (h : v.cls = .universal) :
    ¬ (v.num ∈ [8, 9, 11, 14, 15, 29] ∨ 30 < v.num) := by
  cases H with
  | leaf _ _ _ _ h3 =>
    cases v with
    | other cls k num c => exact absurd h h3.1
    | text k cs => cases k <;> simp [Value.num, strTag]
    | _ => simp [Value.num]
  | sequence _ _ _ _ _ _ => simp [Value.num]
  | set _ _ _ _ _ _ => simp [Value.num]

/-- What is known of an element that encodes a value. -/
structure Coded (D : Deps) (R : Rules) (v : Value) (i rem : Bytes) (h : Header) (c : Bytes) (x : Content) : Prop where
  framed : FramedBy R i rem h c
  rules : R = .der → h.cls = .universal → DerRules h.tag c
  denotes : Denotes D 50 h c x
  value : HasValue (.mk h x) v

theorem framedBy_ber {R : Rules} {i rem c : Bytes} {h : Header} (H : FramedBy R i rem h c) : FramedBy .ber i rem h c := by
  cases R with
  | ber => exact H
  | der =>
    obtain ⟨hb, rfl, h1, h2⟩ := H
    exact ⟨hb ++ c, rfl, .definite hb c h h1.1 h2⟩

theorem framedBy_header {R : Rules} {i rem c : Bytes} {h : Header} (H : FramedBy R i rem h c) :
    (∃ hb r, i = hb ++ r ∧ BerHeader hb h) ∧ (∀ l, h.length = .definite l → l = c.length) := by
  obtain ⟨e, rfl, H'⟩ := framedBy_ber H
  clear H
  cases H' with
  | definite hb _ _ h1 h2 =>
    refine ⟨⟨hb, c ++ rem, by simp, h1⟩, fun l hl => ?_⟩
    rw [h2] at hl; cases hl; rfl
  | indefinite m hb es t _ _ h1 h2 _ _ =>
    refine ⟨⟨hb, es.flatten ++ t ++ rem, by simp, h1⟩, fun l hl => ?_⟩
    rw [h2] at hl; cases hl

theorem coded_of {D : Deps} {R : Rules} {v : Value} {e : Bytes} (H : ValueBy D R v e) (hl : e.length < 2 ^ 64) (rest : Bytes) :
    ∃ h c x, Coded D R v (e ++ rest) rest h c x := by
  obtain ⟨⟨h, c, x, h1, h2, h3, _⟩, _⟩ := codes_denotes (fun _ _ h => h) H.1 (by omega) hl
  cases R with
  | ber => exact ⟨h, c, x, ⟨e, rfl, h1⟩, by simp, h2, h3⟩
  | der =>
    obtain ⟨hb, h', c', rfl, k1, k2, k3, _⟩ := derDoc_denotes (H.2 rfl) hl
    obtain ⟨_, _, rfl, rfl⟩ := framed_unique (r := []) (r' := []) h1 (.definite hb c' h' k1.1 k2) rfl
    exact ⟨h, c, x, ⟨hb, by simp, k1, k2⟩, fun _ => k3, h2, h3⟩

theorem coded_not_unknown {D : Deps} {R : Rules} {v : Value} {i rem c : Bytes} {h : Header} {x : Content}
    (H : Coded D R v i rem h c x) (hv : v.cls = .universal) : ∀ a, x ≠ .unknown a := by
  rintro a rfl
  have ht := hasValue_tag H.value
  have hk := value_known H.value hv
  have hd := H.denotes
  rw [← ht.2] at hk
  cases hd with
  | leaf _ _ _ _ h1 =>
    rcases h1.2 with h1 | h1
    · exact h1 (ht.1.trans hv)
    · exact hk h1

theorem coded_any {D : Deps} {R : Rules} {v : Value} {i rem c : Bytes} {h : Header} {x : Content}
    (H : Coded D R v i rem h c x) (hc : c.length < 2 ^ 32) : AnyBy D R i rem (.mk h x) := by
  refine ⟨c, H.framed, ?_⟩
  cases R with
  | ber => exact H.denotes
  | der =>
    refine ⟨hc, ?_⟩
    by_cases hu : h.cls = .universal
    · refine .inr ⟨hu, H.rules rfl hu, ?_⟩
      exact denotes_same_kind H.denotes hu.symm rfl rfl rfl
        (coded_not_unknown H ((hasValue_tag H.value).1.symm.trans hu))
    · refine .inl ⟨hu, ?_⟩
      have hd := H.denotes
      show x = .unknown ⟨h, c⟩
      cases hd with
      | leaf _ _ _ _ h1 =>
        cases x
        case unknown a => rw [h1.1]
        all_goals first
          | exact absurd h1.1 hu
          | exact h1.elim
      | sequence _ _ _ h1 _ _ _ _ => exact absurd h1 hu
      | set _ _ _ h1 _ _ _ _ => exact absurd h1 hu

theorem coded_typed {D : Deps} {R : Rules} {v : Value} {i rem c : Bytes} {h : Header} {x : Content}
    (H : Coded D R v i rem h c x) (hv : v.cls = .universal) (hc : c.length < 2 ^ 32) :
    TypedBy D R v.num v.num i rem (.mk h x) := by
  have ht := hasValue_tag H.value
  have hu : h.cls = .universal := ht.1.trans hv
  refine ⟨c, H.framed, ht.2, fun l hl => .inl ?_, fun hR => ?_, ?_⟩
  · rw [(framedBy_header H.framed).2 l hl]; exact hc
  · rw [← ht.2]; exact H.rules hR hu
  · exact denotes_same_kind H.denotes hu.symm rfl ht.2.symm rfl (coded_not_unknown H hv)

theorem framedBy_length {R : Rules} {e rem c : Bytes} {h : Header} (H : FramedBy R (e ++ rem) rem h c) : c.length ≤ e.length := by
  obtain ⟨e', he, H'⟩ := framedBy_ber H
  obtain rfl : e = e' := List.append_cancel_right he
  clear H he
  cases H' with
  | definite hb _ _ _ _ => simp
  | indefinite m hb es t _ _ _ _ _ _ => simp only [List.length_append, List.length_take]; omega

theorem codes_num {D : Deps} {X : Bytes → Prop} {P : Bool → Value → Prop} {N d n : Nat} {v : Value} {e : Bytes}
    (H : Codes D X P N d n v e) (hv : v.cls = .universal) : v.num < 31 := by
  cases H with
  | primitive _ _ _ _ _ _ _ _ _ h _ => exact value_num_lt h
  | other _ _ _ _ _ _ _ _ h _ _ _ => exact absurd hv h
  | otherIndefinite _ _ _ _ _ _ h _ _ _ => exact absurd hv h
  | list _ _ _ _ _ _ _ _ h _ _ => rcases h with ⟨_, rfl⟩ | ⟨_, rfl⟩ <;> simp [Value.num]
  | listIndefinite _ _ _ _ _ _ _ h _ _ => rcases h with ⟨_, rfl⟩ | ⟨_, rfl⟩ <;> simp [Value.num]
  | segments => simp [Value.num]
  | segmentsIndefinite => simp [Value.num]

/-- The same contents octets under another tag. -/
theorem coded_retagged {D : Deps} {R : Rules} {v : Value} {e₀ e : Bytes} {cls : Class} {tag : Nat} (H : ValueBy D R v e₀)
    (hv : v.cls = .universal) (hr : Retagged v.num cls tag e₀ e) (hl : e.length < 2 ^ 32) (rest : Bytes) :
    ∃ h x, TypedBy D R tag v.num (e ++ rest) rest (.mk h x) ∧ h.length ≠ .indefinite ∧ h.cls ≠ .universal ∧
      HasT (.mk h x) (.retagged cls tag v) := by
  obtain ⟨id₀, id, len, c, k, rfl, rfl, h1, h2, h3, h4, h5⟩ := hr
  have hc : c.length < 2 ^ 32 := by simp only [List.length_append] at hl; omega
  have hn := codes_num H.1 hv
  have hid := minIdent_length h1 (by omega)
  have hl0 : (id₀ ++ (len ++ c)).length < 2 ^ 64 := by simp only [List.length_append] at hl ⊢; omega
  obtain ⟨h, c', x, K⟩ := coded_of H hl0 []
  have hb0 := berHeader_of h1 h5 (by omega) (by omega)
  have hb := berHeader_of h4 h5 h3 (by omega)
  obtain ⟨e', he, hF⟩ := framedBy_ber K.framed
  simp only [List.append_nil] at he
  subst he
  have hF0 := Framed.definite (n := 50) _ c _ hb0 rfl
  rw [List.append_assoc] at hF0
  obtain ⟨_, _, rfl, rfl⟩ := framed_unique (r := []) (r' := []) hF hF0 rfl
  refine ⟨⟨cls, k, tag, .definite c'.length, some id⟩, x, ⟨c', ?_, rfl, ?_, ?_, ?_⟩, by simp, h2, ?_⟩
  · cases R with
    | ber =>
      refine ⟨_, rfl, ?_⟩
      rw [← List.append_assoc]
      exact .definite _ c' _ hb rfl
    | der => exact ⟨id ++ len, by simp, ⟨hb, by simp⟩, rfl⟩
  · intro l hl; cases hl; exact .inl hc
  · exact fun hR => K.rules hR rfl
  · exact denotes_same_kind K.denotes rfl rfl rfl rfl (coded_not_unknown K hv)
  · exact .retagged _ _ _ _ rfl rfl (hasValue_header K.value rfl rfl rfl)

theorem around_framed {R : Rules} {cls : Class} {tag : Nat} {c e : Bytes} (H : Around R cls tag c e) (hl : e.length < 2 ^ 32)
    (rest : Bytes) : ∃ h, FramedBy R (e ++ rest) rest h c ∧ h.cls = cls ∧ h.tag = tag ∧ h.constructed = true := by
  cases H with
  | definite id len h0 h1 h2 =>
    have hb := berHeader_of h1 h2 h0 (by simp only [List.length_append] at hl; omega)
    refine ⟨⟨cls, true, tag, .definite c.length, some id⟩, ?_, rfl, rfl, rfl⟩
    cases R with
    | ber =>
      refine ⟨_, rfl, ?_⟩
      rw [← List.append_assoc]
      exact .definite _ c _ hb rfl
    | der => exact ⟨id ++ len, by simp, ⟨hb, by simp⟩, rfl⟩
  | indefinite id es hR h0 h1 h2 h3 =>
    subst hR
    subst h2
    refine ⟨⟨cls, true, tag, .indefinite, some id⟩, ⟨_, rfl, ?_⟩, rfl, rfl, rfl⟩
    rw [show id ++ 0x80 :: (es.flatten ++ [0, 0]) = (id ++ [0x80]) ++ (es.flatten ++ [0, 0]) by simp]
    exact framed_indefinite (m := 48) (berHeader_indefinite h1 h0) rfl h3 (by omega)

/-! ## Tags -/

theorem accepts_sees {D : Deps} {R : Rules} {s : Schema} (hs : s.isOptional = false) {i rem : Bytes} {o : BerObject}
    (H : Accepts D R s i rem o) : ∃ hb r h, i = hb ++ r ∧ BerHeader hb h ∧ s.Sees (decide (h.cls = .universal)) h.tag := by
  have key : ∃ h c, FramedBy R i rem h c ∧ s.Sees (decide (h.cls = .universal)) h.tag := by
    cases s with
    | any => obtain ⟨c, h1, _⟩ := H; exact ⟨_, c, h1, true, trivial⟩
    | typed tag => obtain ⟨c, h1, h2, _⟩ := H; exact ⟨_, c, h1, true, rfl, h2⟩
    | choice tag tags => obtain ⟨t, h0, c, h1, h2, _⟩ := H; exact ⟨_, c, h1, true, rfl, h2 ▸ h0⟩
    | implicit tag type => obtain ⟨⟨c, h1, h2, _⟩, _⟩ := H; exact ⟨_, c, h1, false, rfl, h2⟩
    | sequenceOf s => obtain ⟨h, c, _, h1, h2, _⟩ := H; exact ⟨h, c, h1, true, rfl, h2⟩
    | setOf s => obtain ⟨h, c, _, h1, h2, _⟩ := H; exact ⟨h, c, h1, true, rfl, h2⟩
    | sequence s => obtain ⟨h, c, _, _, h1, h2, _⟩ := H; exact ⟨h, c, h1, true, rfl, h2⟩
    | set s => obtain ⟨h, c, _, _, h1, h2, _⟩ := H; exact ⟨h, c, h1, true, rfl, h2⟩
    | explicit tag s => obtain ⟨h, c, _, _, h1, h2, h3, _⟩ := H; exact ⟨h, c, h1, by simp [h2], h3⟩
    | optional _ => cases hs
    | explicitOptional _ _ => cases hs
  obtain ⟨h, c, h1, h2⟩ := key
  obtain ⟨hb, r, h3, h4⟩ := (framedBy_header h1).1
  exact ⟨hb, r, h, h3, h4, h2⟩

theorem codes_tags {D : Deps} {R : Rules} (s : Schema) {t : TValue} {e : Bytes} (H : TypeCodes D R s t e)
    (hl : e.length < 2 ^ 32) (rest : Bytes) : (s.isOptional = true ∧ e = []) ∨
      ∃ hb r h, e ++ rest = hb ++ r ∧ BerHeader hb h ∧ s.Tags (decide (h.cls = .universal)) h.tag := by
  have around : ∀ {cls tag c}, Around R cls tag c e → ∃ hb r h, e ++ rest = hb ++ r ∧ BerHeader hb h ∧ h.cls = cls ∧
      h.tag = tag := fun h => by
    obtain ⟨h, h1, h2, h3, _⟩ := around_framed h hl rest
    obtain ⟨hb, r, h4, h5⟩ := (framedBy_header h1).1
    exact ⟨hb, r, h, h4, h5, h2, h3⟩
  have value : ∀ {v}, ValueBy D R v e → ∃ hb r h, e ++ rest = hb ++ r ∧ BerHeader hb h ∧ h.cls = v.cls ∧ h.tag = v.num :=
    fun h => by
      obtain ⟨h, c, x, h1⟩ := coded_of h (by omega) rest
      have h2 := hasValue_tag h1.value
      obtain ⟨hb, r, h4, h5⟩ := (framedBy_header h1.framed).1
      exact ⟨hb, r, h, h4, h5, h2.1, h2.2⟩
  match s, H with
  | .any, H =>
    obtain ⟨v, rfl, h1⟩ := H
    obtain ⟨hb, r, h, h2, h3, _⟩ := value h1
    exact .inr ⟨hb, r, h, h2, h3, trivial⟩
  | .typed tag, H =>
    obtain ⟨v, rfl, h1, hu, hn⟩ := H
    obtain ⟨hb, r, h, h2, h3, h4, h5⟩ := value h1
    exact .inr ⟨hb, r, h, h2, h3, by simp [h4, hu], h5.trans hn⟩
  | .choice tag tags, H =>
    obtain ⟨v, rfl, h1, hu, hn⟩ := H
    obtain ⟨hb, r, h, h2, h3, h4, h5⟩ := value h1
    exact .inr ⟨hb, r, h, h2, h3, by simp [h4, hu], by rw [h5]; exact hn⟩
  | .implicit tag type, H =>
    obtain ⟨v, e₀, cls, rfl, h1, hu, rfl, h2⟩ := H
    obtain ⟨h, x, h3, _, h5, _⟩ := coded_retagged h1 hu h2 hl rest
    obtain ⟨c, h3, h4, _⟩ := h3
    obtain ⟨hb, r, h6, h7⟩ := (framedBy_header h3).1
    exact .inr ⟨hb, r, h, h6, h7, by simp [h5], h4⟩
  | .sequenceOf _, H =>
    obtain ⟨_, _, _, _, h1⟩ := H
    obtain ⟨hb, r, h, h2, h3, h4, h5⟩ := around h1
    exact .inr ⟨hb, r, h, h2, h3, by simp [h4], h5⟩
  | .setOf _, H =>
    obtain ⟨_, _, _, _, h1⟩ := H
    obtain ⟨hb, r, h, h2, h3, h4, h5⟩ := around h1
    exact .inr ⟨hb, r, h, h2, h3, by simp [h4], h5⟩
  | .sequence _, H =>
    obtain ⟨_, _, _, _, h1⟩ := H
    obtain ⟨hb, r, h, h2, h3, h4, h5⟩ := around h1
    exact .inr ⟨hb, r, h, h2, h3, by simp [h4], h5⟩
  | .set _, H =>
    obtain ⟨_, _, _, _, h1⟩ := H
    obtain ⟨hb, r, h, h2, h3, h4, h5⟩ := around h1
    exact .inr ⟨hb, r, h, h2, h3, by simp [h4], h5⟩
  | .explicit tag _, H =>
    obtain ⟨_, _, cls, _, h0, _, h1⟩ := H
    obtain ⟨hb, r, h, h2, h3, h4, h5⟩ := around h1
    exact .inr ⟨hb, r, h, h2, h3, by simp [h4, h0], h5⟩
  | .optional s, H =>
    rcases H with ⟨h1, h2⟩ | ⟨t', _, H⟩
    · exact .inl ⟨rfl, h2⟩
    · rcases codes_tags s H hl rest with ⟨h1, h2⟩ | h1
      · exact .inl ⟨rfl, h2⟩
      · exact .inr h1
  | .explicitOptional tag _, H =>
    rcases H with ⟨h1, h2⟩ | ⟨_, _, cls, _, h0, _, h1⟩
    · exact .inl ⟨rfl, h2⟩
    · obtain ⟨hb, r, h, h2, h3, h4, h5⟩ := around h1
      exact .inr ⟨hb, r, h, h2, h3, by simp [h4, h0], h5⟩

theorem codesAll_tags {D : Deps} {R : Rules} : (l : List Schema) → {ts : List TValue} → {c : Bytes} →
    TypeCodesAll D R l ts c → c.length < 2 ^ 32 → c = [] ∨
      ∃ hb r h, c = hb ++ r ∧ BerHeader hb h ∧ FirstTags l (decide (h.cls = .universal)) h.tag
  | [], _, _, H, _ => .inl H.2
  | s :: l, _, _, H, hl => by
    obtain ⟨t, ts', e, c', rfl, rfl, h1, h2⟩ := H
    simp only [List.length_append] at hl
    rcases codes_tags s h1 (by omega) c' with ⟨h3, rfl⟩ | ⟨hb, r, h, h3, h4, h5⟩
    · rcases codesAll_tags l h2 (by omega) with h4 | ⟨hb, r, h, h4, h5, h6⟩
      · exact .inl h4
      · exact .inr ⟨hb, r, h, h4, h5, .inr ⟨h3, h6⟩⟩
    · exact .inr ⟨hb, r, h, h3, h4, .inl h5⟩

theorem away_first {D : Deps} {R : Rules} {s : Schema} {l : List Schema} {ts : List TValue} {c : Bytes}
    (H : TypeCodesAll D R l ts c) (hl : c.length < 2 ^ 32) (ha : ∀ u n, FirstTags l u n → ¬ s.Sees u n) :
    Away Schema.Sees s c := by
  intro hb r h hc hh hs
  rcases codesAll_tags l H hl with rfl | ⟨hb', r', h', k1, k2, k3⟩
  · obtain ⟨id, len, num, rfl, h1, _⟩ := hh.octets
    generalize h.cls = x, h.constructed = y at h1
    cases h1 <;> simp at hc
  · obtain ⟨rfl, rfl⟩ := berHeader_unique hh k2 (hc.symm.trans k1)
    exact ha _ _ k3 hs

theorem away_nil (T : Schema → Bool → Nat → Prop) (s : Schema) : Away T s [] := by
  intro hb r h hc hh _
  obtain ⟨id, len, num, rfl, h1, _⟩ := hh.octets
  generalize h.cls = x, h.constructed = y at h1
  cases h1 <;> simp at hc

theorem sees_optional {s : Schema} (hs : s.isOptional = false) {u : Bool} {n : Nat} (h : s.Sees u n) :
    (Schema.optional s).Sees u n := by
  cases s
  case optional => cases hs
  case explicitOptional => cases hs
  all_goals exact h

/-! ## Composed parsers -/

/-- Objects that answer with the values, one by one. -/
def AllHave (vs : List BerObject) (ts : List TValue) : Prop :=
  ∃ ps : List (BerObject × TValue), ps.map Prod.fst = vs ∧ ps.map Prod.snd = ts ∧ ∀ p ∈ ps, HasT p.1 p.2

theorem AllHave.nil : AllHave [] [] := ⟨[], rfl, rfl, by simp⟩

theorem AllHave.cons {o : BerObject} {t : TValue} {vs : List BerObject} {ts : List TValue} (h : HasT o t) (H : AllHave vs ts) :
    AllHave (o :: vs) (t :: ts) := by
  obtain ⟨ps, rfl, rfl, h2⟩ := H
  refine ⟨(o, t) :: ps, rfl, rfl, fun p hp => ?_⟩
  rcases List.mem_cons.1 hp with rfl | hp
  · exact h
  · exact h2 p hp

theorem AllHave.sequence {vs : List BerObject} {ts : List TValue} (H : AllHave vs ts) : HasT (.fromSeq vs) (.sequence ts) := by
  obtain ⟨ps, rfl, rfl, h⟩ := H
  exact .sequence _ ps rfl rfl rfl h

theorem AllHave.set {vs : List BerObject} {ts : List TValue} (H : AllHave vs ts) : HasT (.fromSet vs) (.set ts) := by
  obtain ⟨ps, rfl, rfl, h⟩ := H
  exact .set _ ps rfl rfl rfl h

theorem each_several {D : Deps} {R : Rules} {s : Schema} {ts : List TValue} {c : Bytes} (H : Each (TypeCodes D R s) ts c)
    (hl : c.length < 2 ^ 32)
    (ih : ∀ t e rest, TypeCodes D R s t e → e.length < 2 ^ 32 → ∃ o, Accepts D R s (e ++ rest) rest o ∧ HasT o t) :
    ∃ vs, Several (Accepts D R s) c vs ∧ AllHave vs ts := by
  induction H with
  | nil => exact ⟨[], .nil, .nil⟩
  | cons t ts e c h1 _ ih' =>
    simp only [List.length_append] at hl
    obtain ⟨o, k1, k2⟩ := ih t e c h1 (by omega)
    obtain ⟨vs, k3, k4⟩ := ih' (by omega)
    exact ⟨o :: vs, .cons _ c o vs k1 k3, k4.cons k2⟩

theorem around_length {R : Rules} {cls : Class} {tag : Nat} {c e : Bytes} (H : Around R cls tag c e) : c.length ≤ e.length := by
  cases H <;> simp only [List.length_append, List.length_cons] <;> omega

theorem not_absent {D : Deps} {R : Rules} {s : Schema} (hs : s.isOptional = false) {e : Bytes} :
    ¬ TypeCodes D R s .absent e := by
  intro H
  cases s
  case optional => cases hs
  case explicitOptional => cases hs
  case any => obtain ⟨_, h, _⟩ := H; cases h
  case typed => obtain ⟨_, h, _⟩ := H; cases h
  case choice => obtain ⟨_, h, _⟩ := H; cases h
  case implicit => obtain ⟨_, _, _, h, _⟩ := H; cases h
  case explicit => obtain ⟨_, _, _, h, _⟩ := H; cases h
  all_goals obtain ⟨_, _, h, _⟩ := H; cases h

mutual
theorem type_accepts (D : Deps) (R : Rules) : (s : Schema) → s.Apart Schema.Sees → ∀ (t : TValue) (e rest : Bytes),
    TypeCodes D R s t e → e.length < 2 ^ 32 → (t = .absent → Away Schema.Sees s rest) →
    ∃ o, Accepts D R s (e ++ rest) rest o ∧ HasT o t
  | .any, _, t, e, rest, H, hl, _ => by
    obtain ⟨v, rfl, h1⟩ := H
    obtain ⟨h, c, x, h2⟩ := coded_of h1 (by omega) rest
    exact ⟨_, coded_any h2 (Nat.lt_of_le_of_lt (framedBy_length h2.framed) hl), .plain _ _ h2.value⟩
  | .typed tag, _, t, e, rest, H, hl, _ => by
    obtain ⟨v, rfl, h1, hu, rfl⟩ := H
    obtain ⟨h, c, x, h2⟩ := coded_of h1 (by omega) rest
    exact ⟨_, coded_typed h2 hu (Nat.lt_of_le_of_lt (framedBy_length h2.framed) hl), .plain _ _ h2.value⟩
  | .choice tag tags, _, t, e, rest, H, hl, _ => by
    obtain ⟨v, rfl, h1, hu, hn⟩ := H
    obtain ⟨h, c, x, h2⟩ := coded_of h1 (by omega) rest
    exact ⟨_, ⟨_, hn, coded_typed h2 hu (Nat.lt_of_le_of_lt (framedBy_length h2.framed) hl)⟩, .plain _ _ h2.value⟩
  | .implicit tag type, _, t, e, rest, H, hl, _ => by
    obtain ⟨v, e₀, cls, rfl, h1, hu, rfl, h2⟩ := H
    obtain ⟨h, x, h3, h4, _, h5⟩ := coded_retagged h1 hu h2 hl rest
    exact ⟨_, ⟨h3, h4⟩, h5⟩
  | .sequenceOf s, ha, t, e, rest, H, hl, _ => by
    obtain ⟨ts, c, rfl, h1, h2⟩ := H
    obtain ⟨vs, h3, h4⟩ := each_several h1 (Nat.lt_of_le_of_lt (around_length h2) hl)
      fun t e rest h hl => type_accepts D R s ha.2 t e rest h hl fun ht => absurd (ht ▸ h) (not_absent ha.1)
    obtain ⟨h, h5, _, h6, _⟩ := around_framed h2 hl rest
    exact ⟨_, ⟨h, c, vs, h5, h6, ha.1, h3, rfl⟩, h4.sequence⟩
  | .setOf s, ha, t, e, rest, H, hl, _ => by
    obtain ⟨ts, c, rfl, h1, h2⟩ := H
    obtain ⟨vs, h3, h4⟩ := each_several h1 (Nat.lt_of_le_of_lt (around_length h2) hl)
      fun t e rest h hl => type_accepts D R s ha.2 t e rest h hl fun ht => absurd (ht ▸ h) (not_absent ha.1)
    obtain ⟨h, h5, _, h6, _⟩ := around_framed h2 hl rest
    exact ⟨_, ⟨h, c, vs, h5, h6, ha.1, h3, rfl⟩, h4.set⟩
  | .sequence l, ha, t, e, rest, H, hl, _ => by
    obtain ⟨ts, c, rfl, h1, h2⟩ := H
    obtain ⟨vs, h3, h4⟩ := types_accept D R l ha ts c h1 (Nat.lt_of_le_of_lt (around_length h2) hl)
    obtain ⟨h, h5, _, h6, _⟩ := around_framed h2 hl rest
    exact ⟨_, ⟨h, c, [], vs, h5, h6, h3, rfl⟩, h4.sequence⟩
  | .set l, ha, t, e, rest, H, hl, _ => by
    obtain ⟨ts, c, rfl, h1, h2⟩ := H
    obtain ⟨vs, h3, h4⟩ := types_accept D R l ha ts c h1 (Nat.lt_of_le_of_lt (around_length h2) hl)
    obtain ⟨h, h5, _, h6, _⟩ := around_framed h2 hl rest
    exact ⟨_, ⟨h, c, [], vs, h5, h6, h3, rfl⟩, h4.set⟩
  | .explicit tag s, ha, t, e, rest, H, hl, _ => by
    obtain ⟨t', c, cls, rfl, h0, h1, h2⟩ := H
    obtain ⟨o, h3, h4⟩ := type_accepts D R s ha t' c [] h1 (Nat.lt_of_le_of_lt (around_length h2) hl)
      fun _ => away_nil _ s
    obtain ⟨h, h5, h6, h7, h8⟩ := around_framed h2 hl rest
    rw [List.append_nil] at h3
    exact ⟨_, ⟨h, c, [], o, h5, by rw [h6]; exact h0, h7, h8, h3, rfl⟩, by rw [← h6]; exact .tagged _ o h.cls tag t' rfl h4⟩
  | .optional s, ha, t, e, rest, H, hl, haw => by
    rcases H with ⟨rfl, rfl⟩ | ⟨t', rfl, H⟩
    · refine ⟨_, .inr ⟨?_, rfl, rfl⟩, .absent _ rfl⟩
      intro rem' o' hacc
      obtain ⟨hb, r, h, h1, h2, h3⟩ := accepts_sees ha.1 hacc
      exact haw rfl hb r h h1 h2 (sees_optional ha.1 h3)
    · obtain ⟨o, h3, h4⟩ := type_accepts D R s ha.2 t' e rest H hl fun ht => absurd (ht ▸ H) (not_absent ha.1)
      exact ⟨_, .inl ⟨o, h3, rfl⟩, .present _ o t' rfl h4⟩
  | .explicitOptional tag s, ha, t, e, rest, H, hl, haw => by
    rcases H with ⟨rfl, rfl⟩ | ⟨t', c, cls, rfl, h0, h1, h2⟩
    · refine ⟨_, .inr ⟨?_, rfl, rfl⟩, .absent _ rfl⟩
      intro rem h c rem' o' hF hu ht hk _
      obtain ⟨hb, r, h1, h2⟩ := (framedBy_header hF).1
      exact haw rfl hb r h h1 h2 ⟨by simp [hu], ht⟩
    · obtain ⟨o, h3, h4⟩ := type_accepts D R s ha t' c [] h1 (Nat.lt_of_le_of_lt (around_length h2) hl)
        fun _ => away_nil _ s
      obtain ⟨h, h5, h6, h7, h8⟩ := around_framed h2 hl rest
      rw [List.append_nil] at h3
      have hu : h.cls ≠ .universal := by rw [h6]; exact h0
      exact ⟨_, .inl ⟨h, c, [], o, framedBy_ber h5, hu, h7, h8, h3, rfl⟩,
        by rw [← h6]; exact .present _ _ _ rfl (.tagged _ o h.cls tag t' rfl h4)⟩
theorem types_accept (D : Deps) (R : Rules) : (l : List Schema) → ApartAll Schema.Sees l → ∀ (ts : List TValue) (c : Bytes),
    TypeCodesAll D R l ts c → c.length < 2 ^ 32 → ∃ vs, AcceptsAll D R l c [] vs ∧ AllHave vs ts
  | [], _, ts, c, H, _ => by
    obtain ⟨rfl, rfl⟩ := H
    exact ⟨[], ⟨rfl, rfl⟩, .nil⟩
  | s :: l, ha, ts, c, H, hl => by
    obtain ⟨t, ts', e, c', rfl, rfl, h1, h2⟩ := H
    simp only [List.length_append] at hl
    obtain ⟨o, k1, k2⟩ := type_accepts D R s ha.1 t e c' h1 (by omega) fun ht => by
      refine away_first h2 (by omega) (ha.2.1 ?_)
      cases hs : s.isOptional with
      | true => rfl
      | false => exact absurd (ht ▸ h1) (not_absent hs)
    obtain ⟨vs, k3, k4⟩ := types_accept D R l ha.2.2 ts' c' h2 (by omega)
    exact ⟨o :: vs, ⟨c', o, vs, k1, k3, rfl⟩, k4.cons k2⟩
end

/-! ## C127 -/

/-- C127 in full: a composed parser reads the values of its ASN.1 type, if what may follow an OPTIONAL component has other
tags.  (`TypeCodes` keeps to what is read at all, see C123 and C90.) -/
def C127Statement : Prop :=
  ∀ (D : Deps), TimesKnown D → ∀ (R : Rules) (s : Schema), s.Apart Schema.Tags → ∀ (t : TValue) (e rest : Bytes),
    TypeCodes D R s t e → e.length < 2 ^ 32 → (t = .absent → Away Schema.Tags s rest) →
    ∃ o, s.run D R (e ++ rest) = .ok (rest, o) ∧ HasT o t

theorem octets_value (D : Deps) (R : Rules) : ValueBy D R (.octets [0xff]) ([0x04] ++ ([0x01] ++ [0xff])) := by
  refine ⟨.primitive 49 49 [0x04] [0x01] [0xff] (.octets [0xff]) (minIdent_low 0x04 (by decide)) (.short 1 (by decide))
    trivial rfl ⟨rfl, trivial⟩, fun _ => ?_⟩
  exact .primitive 49 [0x04] [0x01] [0xff] .universal 4 (minIdent_low 0x04 (by decide))
    (minLen_short 1 (by decide)) (fun _ => trivial) ⟨by decide, fun _ => by simp [strTag]⟩

/-- SEQUENCE { version [2] EXPLICIT INTEGER OPTIONAL, serial INTEGER, data OCTET STRING OPTIONAL, key [0] IMPLICIT OCTET STRING }
keeps its components apart, although the first two components have the same number. -/
theorem apart_serial : (Schema.sequence [.explicitOptional 2 (.typed 2), .typed 2, .optional (.typed 4), .implicit 0 4]).Apart Schema.Sees := by
  refine ⟨trivial, ?_, trivial, ?_, ⟨rfl, trivial⟩, ?_, trivial, ?_, trivial⟩
  · rintro - u n (h | ⟨h, -⟩) h'
    · have h1 := h.1; rw [h'.1] at h1; cases h1
    · cases h
  · exact fun h => by cases h
  · rintro - u n (h | ⟨h, -⟩) ⟨u', h'⟩
    · have h1 := h.2; rw [h'.2] at h1; cases h1
    · cases h
  · exact fun h => by cases h

/-- SEQUENCE { OCTET STRING OPTIONAL, [0] IMPLICIT OCTET STRING } without and with its first component, the second time with
an indefinite length. -/
theorem typeCodes_small (D : Deps) : TypeCodes D .ber (.sequence [.optional (.typed 4), .implicit 0 4])
      (.sequence [.absent, .retagged .contextSpecific 0 (.octets [0xff])]) [0x30, 0x03, 0x80, 0x01, 0xff] ∧
    TypeCodes D .ber (.sequence [.optional (.typed 4), .implicit 0 4])
      (.sequence [.present (.plain (.octets [0xff])), .retagged .contextSpecific 0 (.octets [0xff])])
      [0x30, 0x80, 0x04, 0x01, 0xff, 0x80, 0x01, 0xff, 0x00, 0x00] := by
  have key : TypeCodes D .ber (.implicit 0 4) (.retagged .contextSpecific 0 (.octets [0xff])) [0x80, 0x01, 0xff] :=
    ⟨_, _, _, rfl, octets_value D .ber, rfl, rfl,
      [0x04], [0x80], [0x01], [0xff], false, rfl, rfl, minIdent_low 0x04 (by decide), by simp,
        by decide, minIdent_low 0x80 (by decide), .short 1 (by decide)⟩
  constructor
  · exact ⟨_, _, rfl, ⟨_, _, [], [0x80, 0x01, 0xff], rfl, rfl, .inl ⟨rfl, rfl⟩, _, [], _, [], rfl, rfl, key, rfl, rfl⟩,
      .definite [0x30] [0x03] (by decide) (minIdent_low 0x30 (by decide)) (.short 3 (by decide))⟩
  · refine ⟨_, _, rfl, ⟨_, _, [0x04, 0x01, 0xff], [0x80, 0x01, 0xff], rfl, rfl,
      .inr ⟨_, rfl, _, rfl, octets_value D .ber, rfl, rfl⟩, _, [], _, [], rfl, rfl, key, rfl, rfl⟩,
      .indefinite [0x30] [[0x04, 0x01, 0xff], [0x80, 0x01, 0xff]] rfl (by decide) (minIdent_low 0x30 (by decide)) rfl ?_⟩
    have hx : ∀ (b : UInt8) (cls : Class) (num : Nat), MinIdent [b] cls false num → num < 2 ^ 32 →
        Element LooseEoc LooseEoc 49 [b, 0x01, 0xff] := by
      intro b cls num hm hn
      have hb := berHeader_of hm (.short 1 (by decide)) hn (by decide)
      refine .definite 48 1 [b, 0x01] [0xff] _ hb rfl rfl ?_
      rintro ⟨h', h1, h2, h3⟩
      obtain ⟨_, rfl⟩ := berHeader_unique (x := [0xff]) (x' := []) hb h1 (by simp)
      cases h3
    intro x hx'
    simp only [List.mem_cons, List.not_mem_nil, or_false] at hx'
    rcases hx' with rfl | rfl
    · exact hx 0x04 .universal 4 (minIdent_low 0x04 (by decide)) (by decide)
    · exact hx 0x80 .contextSpecific 0 (minIdent_low 0x80 (by decide)) (by decide)

theorem apart_small : (Schema.sequence [.optional (.typed 4), .implicit 0 4]).Apart Schema.Sees := by
  refine ⟨⟨rfl, trivial⟩, ?_, trivial, ?_, trivial⟩
  · rintro - u n (h | ⟨h, -⟩) ⟨u', h'⟩
    · have h1 := h.2; rw [h'.2] at h1; cases h1
    · cases h
  · exact fun h => by cases h

/-- C127, what holds: so it is if the OPTIONAL component has an explicit tag, or if what may follow it has other tag numbers.
Missing: tags with the same number and different classes, which are mistaken for each other. -/
theorem C127_values_partial (D : Deps) (hT : TimesKnown D) (R : Rules) (s : Schema) (ha : s.Apart Schema.Sees) (t : TValue)
    (e rest : Bytes) (H : TypeCodes D R s t e) (hl : e.length < 2 ^ 32) (hr : t = .absent → Away Schema.Sees s rest) :
    ∃ o, s.run D R (e ++ rest) = .ok (rest, o) ∧ HasT o t := by
  obtain ⟨o, h1, h2⟩ := type_accepts D R s ha t e rest H hl hr
  exact ⟨o, (C96_exact D hT R s _ _ o).2 h1, h2⟩

example := C127_values_partial Tests.D0 (fun _ _ _ => by simp [Tests.D0]) .ber _ apart_small _ _ [0x07] (typeCodes_small _).1 (by decide)
  (fun h => by cases h)

/-- C127: a type that is not OPTIONAL, before any octets. -/
theorem C127_required_partial (D : Deps) (hT : TimesKnown D) (R : Rules) (s : Schema) (ha : s.Apart Schema.Sees)
    (hs : s.isOptional = false) (t : TValue) (e rest : Bytes) (H : TypeCodes D R s t e) (hl : e.length < 2 ^ 32) :
    ∃ o, s.run D R (e ++ rest) = .ok (rest, o) ∧ HasT o t :=
  C127_values_partial D hT R s ha t e rest H hl fun ht => absurd (ht ▸ H) (not_absent hs)

example := C127_required_partial Tests.D0 (fun _ _ _ => by simp [Tests.D0]) .ber _ apart_small rfl _ _ [0x07] (typeCodes_small _).2
  (by decide)

/-- SEQUENCE { a BOOLEAN OPTIONAL, b [1] IMPLICIT OCTET STRING OPTIONAL }. -/
def twoOptions : Schema := .sequence [.optional (.typed 1), .optional (.implicit 1 4)]

set_option maxRecDepth 10000 in
/-- C127 is false when an OPTIONAL component and the next one have the same number in different classes: the octets for `b`
alone, the OCTET STRING `ff`, are read by the parser of the type as `a`, TRUE, in BER and DER. -/
theorem C127_class_counterexample (D : Deps) (R : Rules) : twoOptions.Apart Schema.Tags ∧
    TypeCodes D R twoOptions (.sequence [.absent, .present (.retagged .contextSpecific 1 (.octets [0xff]))])
      [0x30, 0x03, 0x81, 0x01, 0xff] ∧
    ∃ o o1 o2 a, twoOptions.run D R [0x30, 0x03, 0x81, 0x01, 0xff] = .ok ([], o) ∧ o.content.asSequence = .ok [o1, o2] ∧
      o1.content.asOptional = .ok (some a) ∧ a.content.asBool = .ok true ∧ o2.content.asOptional = .ok none ∧
      ¬ HasT o (.sequence [.absent, .present (.retagged .contextSpecific 1 (.octets [0xff]))]) := by
  refine ⟨?_, ?_, ?_⟩
  · refine ⟨⟨rfl, trivial⟩, ?_, ⟨rfl, trivial⟩, ?_, trivial⟩
    · rintro - u n (h | ⟨-, h⟩) h'
      · have h1 := h.1; rw [h'.1] at h1; cases h1
      · exact h
    · exact fun _ _ _ h => h.elim
  · exact ⟨_, _, rfl, ⟨_, _, [], [0x81, 0x01, 0xff], rfl, rfl, .inl ⟨rfl, rfl⟩, _, [], _, [], rfl, rfl,
      .inr ⟨_, rfl, _, _, _, rfl, octets_value D R, rfl, rfl,
        [0x04], [0x81], [0x01], [0xff], false, rfl, rfl, minIdent_low 0x04 (by decide), by simp,
          by decide, minIdent_low 0x81 (by decide), .short 1 (by decide)⟩, rfl, rfl⟩,
      .definite [0x30] [0x03] (by decide) (minIdent_low 0x30 (by decide)) (.short 3 (by decide))⟩
  · have key : ∀ h : Header, ¬ HasT (.fromSeq [.mk h (.optionalSome (.mk h (.boolean true))), .fromObj .optionalNone])
        (.sequence [.absent, .present (.retagged .contextSpecific 1 (.octets [0xff]))]) := by
      intro h H
      generalize ht : TValue.sequence [.absent, .present (.retagged .contextSpecific 1 (.octets [0xff]))] = t at H
      cases H with
      | sequence _ ps _ _ h3 h4 =>
        cases ps with
        | nil => cases ht
        | cons p ps =>
          simp only [List.map_cons, TValue.sequence.injEq, List.cons.injEq] at ht
          simp only [BerObject.fromSeq, BerObject.fromObj, BerObject.content, Content.asSequence, List.map_cons, ok.injEq,
            List.cons.injEq] at h3
          have h5 := h4 p (by simp)
          rw [← h3.1, ← ht.1] at h5
          cases h5 with
          | absent _ h6 => cases h6
      | _ => cases ht
    cases R <;> exact ⟨_, _, _, _, rfl, rfl, rfl, rfl, rfl, key _⟩

/-- C127 as stated is false. -/
theorem C127_full_counterexample : ¬ C127Statement := fun H => by
  obtain ⟨h1, h2, o, o1, o2, a, h3, _, _, _, _, h4⟩ := C127_class_counterexample Tests.D0 .ber
  obtain ⟨o', h5, h6⟩ := H Tests.D0 timesKnown_D0 .ber _ h1 _ _ [] h2 (by decide) (fun h => by cases h)
  rw [List.append_nil, h3] at h5
  cases h5
  exact h4 h6

set_option maxRecDepth 10000 in
/-- C127: the components of a SET are read in the order of the parsers only.  SET { a BOOLEAN, b OCTET STRING } with `b` first
is BER, but refused. -/
theorem C127_set_order_counterexample (D : Deps) (R : Rules) :
    (∃ o, (Schema.set [.typed 1, .typed 4]).run D R [0x31, 0x06, 0x01, 0x01, 0xff, 0x04, 0x01, 0xff] = .ok ([], o) ∧
      HasT o (.set [.plain (.boolean true), .plain (.octets [0xff])])) ∧
    (Schema.set [.typed 1, .typed 4]).run D R [0x31, 0x06, 0x04, 0x01, 0xff, 0x01, 0x01, 0xff] =
      .err (.error (.unexpectedTag (some 1) 4)) := by
  refine ⟨?_, by cases R <;> rfl⟩
  have key : ∀ h h' : Header, h.cls = .universal → h.tag = 1 → h'.cls = .universal → h'.tag = 4 →
      HasT (.fromSet [.mk h (.boolean true), .mk h' (.octetString [0xff])])
        (.set [.plain (.boolean true), .plain (.octets [0xff])]) := fun h h' h1 h2 h3 h4 =>
    ((AllHave.nil.cons (.plain (.mk h' (.octetString [0xff])) (.octets [0xff]) (.leaf _ _ h3 h4 rfl))).cons
      (.plain (.mk h (.boolean true)) (.boolean true) (.leaf _ _ h1 h2 rfl))).set
  cases R <;> exact ⟨_, rfl, key _ _ rfl rfl rfl rfl⟩

end Verif
