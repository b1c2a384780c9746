import Verif.Lemmas.Denote
/-!
# The DER functions compute denotations restricted by `DerRules`
-/
namespace Verif
open Outcome Spec

/-! ## Bits -/

theorem ofBits_eq_zero (l : List Bool) : ofBits l = 0 ↔ ∀ b ∈ l, b = false := by
  induction l with
  | nil => simp [ofBits]
  | cons b l ih =>
    have : 0 < 2 ^ l.length := Nat.pow_pos (by decide)
    cases b
    · simp [ofBits, ih]
    · simp only [ofBits, if_true, List.mem_cons, forall_eq_or_imp, Bool.true_eq_false, false_and,
        iff_false]
      omega

theorem ofBits_drop (l : List Bool) (k : Nat) (hk : k ≤ l.length) :
    ofBits (l.drop (l.length - k)) = ofBits l % 2 ^ k := by
  have h1 : ofBits l = ofBits (l.take (l.length - k)) * 2 ^ k + ofBits (l.drop (l.length - k)) := by
    have := ofBits_append (l.take (l.length - k)) (l.drop (l.length - k))
    rw [List.take_append_drop, List.length_drop, show l.length - (l.length - k) = k by omega] at this
    exact this
  have h2 := ofBits_lt (l.drop (l.length - k))
  rw [List.length_drop, show l.length - (l.length - k) = k by omega] at h2
  rw [h1, Nat.mul_add_mod_of_lt' h2]
where
  Nat.mul_add_mod_of_lt' {a b c : Nat} (h : c < b) : (a * b + c) % b = c := by
    rw [Nat.mul_comm, Nat.mul_add_mod, Nat.mod_eq_of_lt h]

theorem unused_bits_iff (u : UInt8) (s : Bytes) (hu : u.toNat ≤ 7) :
    (∀ b ∈ (bitsOf s).drop (8 * s.length - u.toNat), b = false) ↔
      ∀ last, s.getLast? = some last → unusedBitsZero u.toNat last.toNat = true := by
  rcases List.eq_nil_or_concat s with rfl | ⟨s', last, rfl⟩
  · simp [bitsOf]
  · have e : (bitsOf (s' ++ [last])).drop (8 * (s' ++ [last]).length - u.toNat) =
        (bitsOfByte last).drop ((bitsOfByte last).length - u.toNat) := by
      have h1 : bitsOf [last] = bitsOfByte last := by simp [bitsOf]
      rw [bitsOf_append, h1, bitsOfByte_length]
      have h2 : 8 * (s' ++ [last]).length - u.toNat = (bitsOf s').length + (8 - u.toNat) := by
        rw [bitsOf_length]; simp only [List.length_append, List.length_singleton]; omega
      rw [h2, List.drop_append]
      simp
    rw [List.concat_eq_append, e, ← ofBits_eq_zero, ofBits_drop _ _ (by rw [bitsOfByte_length]; omega), ofBits_bitsOfByte,
      ← unusedBitsZero_dvd]
    simp

theorem bitsOfByte_zero (b : UInt8) : bitsOfByte b = List.replicate 8 false ↔ b = 0 := by
  constructor
  · intro h
    have h1 := ofBits_bitsOfByte b
    rw [h] at h1
    exact UInt8.toNat_inj.1 (by rw [← h1]; decide)
  · rintro rfl; decide

theorem nine_zero_bits (c : Bytes) :
    (bitsOf c).take 9 = List.replicate 9 false ↔ ∃ b rest, c = 0 :: b :: rest ∧ b.toNat < 128 := by
  match c with
  | [] => simp [bitsOf]
  | [a] =>
    constructor
    · intro h
      have := congrArg List.length h
      rw [List.length_take, bitsOf_length] at this
      simp at this
    · rintro ⟨b, rest, h, _⟩; simp at h
  | a :: b :: rest =>
    have h7 : b.toNat.testBit 7 = decide (128 ≤ b.toNat) := (bits_table' _ b.toNat_lt).1
    have e : (bitsOf (a :: b :: rest)).take 9 = bitsOfByte a ++ [decide (128 ≤ b.toNat)] := by
      have : bitsOf (a :: b :: rest) = bitsOfByte a ++ (bitsOfByte b ++ bitsOf rest) := rfl
      rw [this, List.take_append, bitsOfByte_length, List.take_of_length_le (by
        rw [bitsOfByte_length]; omega), ← h7]
      simp [bitsOfByte]
    rw [e, show List.replicate 9 false = List.replicate 8 false ++ [false] from rfl]
    constructor
    · intro h
      obtain ⟨h1, h2⟩ := List.append_inj h (by rw [bitsOfByte_length]; rfl)
      refine ⟨b, rest, by rw [(bitsOfByte_zero a).1 h1], ?_⟩
      simpa using h2
    · rintro ⟨b', rest', h, hb⟩
      simp only [List.cons.injEq] at h
      obtain ⟨rfl, rfl, rfl⟩ := h
      rw [(bitsOfByte_zero 0).2 rfl]
      simp; omega

theorem derIntegerCheck_iff (c : Bytes) : derIntegerCheck c = .ok () ↔
    c ≠ [] ∧ (bitsOf c).take 9 ≠ List.replicate 9 false := by
  rw [Ne, Ne, nine_zero_bits]
  match c with
  | [] => simp [derIntegerCheck]
  | [a] => simp [derIntegerCheck]
  | a :: b :: rest =>
    simp only [derIntegerCheck]
    constructor
    · intro h
      refine ⟨by simp, ?_⟩
      rintro ⟨b', rest', h1, h2⟩
      simp only [List.cons.injEq] at h1
      obtain ⟨rfl, rfl, _⟩ := h1
      rw [if_pos ⟨rfl, h2⟩] at h
      simp at h
    · rintro ⟨_, h⟩
      rw [if_neg]
      rintro ⟨rfl, h2⟩
      exact h ⟨b, rest, rfl, h2⟩

/-! ## The checks -/

theorem uKind_cases {tag : Nat} : (tag = 1 ∧ uKind tag = .boolean) ∨ (tag = 2 ∧ uKind tag = .integer) ∨
    (tag = 3 ∧ uKind tag = .bitString) ∨ (tag = 23 ∧ uKind tag = .utcTime) ∨
    (tag = 24 ∧ uKind tag = .generalizedTime) ∨
    (tag ≠ 1 ∧ tag ≠ 2 ∧ tag ≠ 3 ∧ tag ≠ 23 ∧ tag ≠ 24 ∧ uKind tag ≠ .boolean ∧
      uKind tag ≠ .integer ∧ uKind tag ≠ .bitString ∧ uKind tag ≠ .utcTime ∧
      uKind tag ≠ .generalizedTime) := by
  by_cases h1 : tag = 1; · subst h1; exact .inl ⟨rfl, rfl⟩
  by_cases h2 : tag = 2; · subst h2; exact .inr (.inl ⟨rfl, rfl⟩)
  by_cases h3 : tag = 3; · subst h3; exact .inr (.inr (.inl ⟨rfl, rfl⟩))
  by_cases h4 : tag = 23; · subst h4; exact .inr (.inr (.inr (.inl ⟨rfl, rfl⟩)))
  by_cases h5 : tag = 24; · subst h5; exact .inr (.inr (.inr (.inr (.inl ⟨rfl, rfl⟩))))
  refine .inr (.inr (.inr (.inr (.inr ⟨h1, h2, h3, h4, h5, ?_⟩))))
  unfold uKind
  split <;> simp_all

/-- The checks made before the BER conversion, for a content whose denotation exists. -/
theorem derCheck_iff {D : Deps} {d tag : Nat} {c : Bool} {pre : Bytes} {v : Content}
    (ht : tag ≠ 3)
    (hd : Denotes D d (Header.new .universal c tag (.definite pre.length)) pre v) :
    derCheck pre tag pre.length c = .ok () ↔ DerRules tag pre := by
  have hR : DerRules tag pre ↔ (tag = 1 → pre = [0x00] ∨ pre = [0xff]) ∧
      (tag = 2 → pre ≠ [] ∧ (bitsOf pre).take 9 ≠ List.replicate 9 false) ∧
      (tag = 23 ∨ tag = 24 → pre.getLast? = some 0x5a) :=
    ⟨fun h => ⟨h.bool, h.int, h.time⟩, fun h => ⟨h.1, h.2.1, fun h3 => absurd h3 ht, h.2.2⟩⟩
  rw [hR]
  have hlast : ∀ t, (if pre.length = 0 ∨ pre[pre.length - 1]? ≠ some 0x5a then
      Outcome.err (BerError.derConstraintFailed t) else Outcome.ok ()) = Outcome.ok () ↔
      pre.getLast? = some 0x5a := by
    intro t
    rw [List.getLast?_eq_getElem?]
    by_cases h0 : pre.length = 0
    · rw [List.length_eq_zero_iff.1 h0]; simp
    · by_cases h1 : pre[pre.length - 1]? = some 0x5a
      · simp [h0, h1]
      · simp [h0, h1]
  rcases uKind_cases (tag := tag) with ⟨rfl, hk⟩ | ⟨rfl, hk⟩ | ⟨rfl, hk⟩ | ⟨rfl, hk⟩ | ⟨rfl, hk⟩ |
    ⟨n1, n2, n3, n4, n5, m1, m2, m3, m4, m5⟩
  · simp only [derCheck, hk, forall_const, Nat.reduceEqDiff, false_imp_iff, or_self, and_true]
    match pre with
    | [] => simp
    | [b] =>
      simp only [List.length_singleton, ne_eq, not_true_eq_false, if_false, List.cons.injEq, and_true]
      by_cases h0 : b = 0
      · simp [h0]
      · by_cases h1 : b = 0xff
        · simp [h1]
        · simp [h0, h1]
    | _ :: _ :: _ => simp
  · simp only [derCheck, hk, Nat.lt_irrefl, if_false, List.take_length, derIntegerCheck_iff,
      forall_const, Nat.reduceEqDiff, false_imp_iff, or_self, and_true, true_and]
  · exact absurd rfl ht
  · simp only [derCheck, hk, hlast]; simp
  · simp only [derCheck, hk, hlast]; simp
  · simp only [n1, n2, n4, n5, false_imp_iff, or_self, and_self, iff_true]
    have hc : (∃ k, uKind tag = .str k) ∨ uKind tag = .bmpString ∨ uKind tag = .universalString →
        c = false := by
      intro h
      cases hd with
      | leaf d h c' x hL =>
        have t28 : uKind tag = .universalString → tag = 28 := by
          intro h; unfold uKind at h; split at h <;> simp at h; rfl
        have t30 : uKind tag = .bmpString → tag = 30 := by
          intro h; unfold uKind at h; split at h <;> simp at h; rfl
        have tk : tag = 28 ∨ tag = 30 ∨ ∃ k, tag = strTag k := by
          rcases h with ⟨k, hk⟩ | hk | hk
          · exact .inr (.inr ⟨k, uKind_str.1 hk⟩)
          · exact .inr (.inl (t30 hk))
          · exact .inl (t28 hk)
        have hh : ∀ v, Leaf D (Header.new .universal c tag (.definite pre.length)) pre v →
            c = false := by
          intro v hL
          cases v <;> simp only [Leaf, Header.new] at hL
          all_goals first
            | exact hL.2.2.1
            | skip
          all_goals
            exfalso
            rcases tk with h | h | ⟨k, h⟩
            · rw [h] at hL; simp at hL
            · rw [h] at hL; simp at hL
            · rw [h] at hL; cases k <;> simp [strTag] at hL
        exact hh _ hL
      | sequence d h items h1 h2 =>
        simp only [Header.new] at h2
        rw [h2] at h
        simp [uKind] at h
      | set d h items h1 h2 =>
        simp only [Header.new] at h2
        rw [h2] at h
        simp [uKind] at h
    unfold derCheck
    split
    · contradiction
    · contradiction
    · rename_i hk; simp [hc (.inl ⟨_, hk⟩)]
    · rename_i hk; simp [hc (.inr (.inl hk))]
    · rename_i hk; simp [hc (.inr (.inr hk))]
    · contradiction
    · contradiction
    · rfl

theorem denotes_bitString {D : Deps} {d : Nat} {h : Header} {c : Bytes} {v : Content}
    (hcls : h.cls = .universal) (ht : h.tag = 3) :
    Denotes D (d + 1) h c v ↔ h.constructed = false ∧ ∃ u s, c = u :: s ∧ v = .bitString u s := by
  constructor
  · intro hd
    cases hd with
    | leaf _ _ _ _ hL =>
      cases v with
      | bitString u s => exact ⟨hL.2.2.1, u, s, hL.2.2.2, rfl⟩
      | str k s => have := hL.2.1; rw [ht] at this; cases k <;> simp [strTag] at this
      | unknown a => have := hL.2; simp [hcls, ht] at this
      | _ => simp [Leaf, ht] at hL
    | sequence _ _ items _ h2 => omega
    | set _ _ items _ h2 => omega
  · rintro ⟨hc, u, s, rfl, rfl⟩
    exact .leaf d h _ _ ⟨hcls, ht, hc, rfl⟩

/-- Exact description of `der_read_element_content_as`. -/
theorem derReadElementContentAs_iff {D : Deps} {d tag : Nat} {c : Bool} {pre rem : Bytes}
    {v : Content} :
    derReadElementContentAs D (pre ++ rem) tag (.definite pre.length) c (d + 1) = .ok (rem, v) ↔
      DerRules tag pre ∧ (tag = 3 ∨ pre.length ≤ maxObjectSize) ∧
      Denotes D (d + 1) (Header.new .universal c tag (.definite pre.length)) pre v := by
  rw [derReadElementContentAs_definite _ _ _ _ _ _ _ rfl]
  by_cases ht : tag = 3
  · subst ht
    rw [if_pos (show 3 = Tag.bitString from rfl), denotes_bitString rfl rfl]
    simp only [Header.new, true_or, true_and]
    cases c with
    | true => simp
    | false =>
      simp only [Bool.false_eq_true, if_false, true_and]
      constructor
      · intro h
        obtain ⟨u, data, h1, h2, h3, rfl, h5, _⟩ := derReadContentBitstring_ok h
        have hp : pre = u :: data := List.append_cancel_right h1
        subst hp
        refine ⟨⟨by simp, by simp, fun _ u' s' hh => ?_, by simp⟩, u, data, rfl, rfl⟩
        simp only [List.cons.injEq] at hh
        obtain ⟨rfl, rfl⟩ := hh
        exact ⟨h3, (unused_bits_iff u data h3).2 h5⟩
      · rintro ⟨hR, u, s, rfl, rfl⟩
        obtain ⟨h1, h2⟩ := hR.bits rfl u s rfl
        rw [unused_bits_iff u s h1] at h2
        simp only [derReadContentBitstring, List.cons_append, List.length_cons]
        rw [if_neg (by omega), if_neg (by omega), Nat.add_sub_cancel, takeStreaming_append]
        simp only [ok_bind]
        split
        · have hs : s.length + 1 - 2 = s.length - 1 := by omega
          rw [hs]
          cases hg : s[s.length - 1]? with
          | none =>
            rw [List.getElem?_eq_none_iff] at hg; omega
          | some last =>
            simp only
            rw [h2 last (by rw [List.getLast?_eq_getElem?]; exact hg)]
            rfl
        · rfl
  · rw [if_neg (show ¬ tag = Tag.bitString from ht)]
    constructor
    · intro h
      obtain ⟨_, h1, h2⟩ := bind_eq_ok.1 h
      split at h2
      · simp at h2
      · rename_i hmax
        obtain ⟨o, h3, h4⟩ := bind_eq_ok.1 h2
        simp only [ok.injEq, Prod.mk.injEq, true_and] at h4
        rw [liftRes_eq_ok] at h3
        have hh := objectFromAny_header h3
        have hd := (objectFromAny_iff D (d + 1) (Header.new .universal c tag (.definite pre.length))
          pre v (by simp [Header.new])).1 (by
            rw [h3, ← h4, ← BerObject.eta o, hh]; rfl)
        exact ⟨(derCheck_iff ht hd).1 (liftRes_eq_ok.1 h1), .inr (by omega), hd⟩
    · rintro ⟨hR, hmax, hd⟩
      rw [(derCheck_iff ht hd).2 hR]
      simp only [liftRes, mapErr_ok, ok_bind]
      rw [if_neg (by rcases hmax with h | h; exact absurd h ht; omega),
        (objectFromAny_iff D (d + 1) _ pre v (by simp [Header.new])).2 hd]
      rfl

/-! ## No `UnknownTag` error -/

/-- The error is not `UnknownTag`. -/
def NoUnk {α : Type} (x : Res α) : Prop := ∀ t, x ≠ .err (.unknownTag t)
/-- The same for nom results. -/
def NoUnkN {α : Type} (x : Outcome (NomErr BerError) α) : Prop :=
  ∀ t, x ≠ .err (.error (.unknownTag t)) ∧ x ≠ .err (.failure (.unknownTag t))

theorem NoUnk.bind {α β : Type} {x : Res α} {f : α → Res β} (hx : NoUnk x)
    (hf : ∀ a, x = .ok a → NoUnk (f a)) : NoUnk (x >>? f) := by
  intro t h
  rcases bind_eq_err.1 h with h | ⟨a, h1, h2⟩
  · exact hx t h
  · exact hf a h1 t h2

theorem NoUnk.map {α β : Type} {x : Res α} {f : α → β} (hx : NoUnk x) : NoUnk (x.map f) := by
  intro t h
  cases x <;> simp at h
  exact hx t (by rw [h])

theorem NoUnkN.bind {α β : Type} {x : Outcome (NomErr BerError) α}
    {f : α → Outcome (NomErr BerError) β} (hx : NoUnkN x)
    (hf : ∀ a, x = .ok a → NoUnkN (f a)) : NoUnkN (x >>? f) := by
  intro t
  constructor <;> intro h <;> rcases bind_eq_err.1 h with h | ⟨a, h1, h2⟩
  · exact (hx t).1 h
  · exact (hf a h1 t).1 h2
  · exact (hx t).2 h
  · exact (hf a h1 t).2 h2

theorem NoUnkN.ok {α : Type} (a : α) : NoUnkN (.ok a) := fun t => by simp
theorem NoUnk.ok {α : Type} (a : α) : NoUnk (.ok a) := fun t => by simp

theorem noUnk_takeStreaming (n : Nat) (i : Bytes) :
    NoUnkN (takeStreaming n i : IRes BerError Bytes) := by
  intro t; unfold takeStreaming; split <;> simp

theorem noUnk_tagLoop (i : Bytes) (count c : Nat) : NoUnkN (tagLoop i count c) := by
  induction i generalizing count c with
  | nil => intro t; simp [tagLoop]
  | cons b i ih =>
    unfold tagLoop
    split
    · intro t; simp
    · dsimp only
      split
      · exact NoUnkN.ok _
      · exact ih _ _

theorem noUnk_header (i : Bytes) : NoUnkN (headerFromBer i) := by
  unfold headerFromBer
  refine NoUnkN.bind ?_ fun a _ => NoUnkN.bind ?_ fun _ _ => NoUnkN.ok _
  · unfold parseIdentifier
    split
    · intro t; simp
    · dsimp only
      split
      · exact NoUnkN.bind (noUnk_tagLoop _ _ _) fun _ _ => NoUnkN.ok _
      · exact NoUnkN.ok _
  · unfold parseLength
    split
    · intro t; simp
    · dsimp only
      split
      · exact NoUnkN.ok _
      · split
        · split
          · exact NoUnkN.ok _
          · intro t; simp
        · split
          · intro t; simp
          · refine NoUnkN.bind (noUnk_takeStreaming _ _) fun a _ => ?_
            split
            · intro t; simp
            · exact NoUnkN.ok _

theorem noUnk_skip (d : Nat) (h : Header) (i : Bytes) : NoUnkN (skipContent d h i) := by
  induction d generalizing h i with
  | zero => intro t; simp [skipContent]
  | succ d ih =>
    unfold skipContent
    split
    · split
      · exact NoUnkN.ok _
      · exact NoUnkN.bind (noUnk_takeStreaming _ _) fun _ _ => NoUnkN.ok _
    · split
      · generalize i.length + 1 = fuel
        induction fuel generalizing i with
        | zero => intro t; simp [skipLoop]
        | succ fuel ihf =>
          unfold skipLoop
          refine NoUnkN.bind (noUnk_header _) fun _ _ => NoUnkN.bind (ih _ _) fun _ _ => ?_
          split
          · exact NoUnkN.ok _
          · exact ihf _
      · intro t; simp

theorem noUnk_anyFromBer (i : Bytes) : NoUnkN (anyFromBer i) := by
  unfold anyFromBer
  refine NoUnkN.bind (noUnk_header _) fun _ _ => NoUnkN.bind ?_ fun _ _ => NoUnkN.ok _
  unfold getObjectContent
  refine NoUnkN.bind (noUnk_skip _ _ _) fun _ _ => ?_
  dsimp only
  split
  · split
    · intro t; simp
    · exact NoUnkN.ok _
  · exact NoUnkN.ok _

theorem noUnk_collectItems {conv : Any → Res BerObject} (hconv : ∀ a, NoUnk (conv a)) (fuel : Nat)
    (data : Bytes) : NoUnk (collectItems conv fuel data) := by
  induction fuel generalizing data with
  | zero => intro t; simp [collectItems]
  | succ fuel ih =>
    unfold collectItems
    split
    · exact NoUnk.ok _
    · refine NoUnk.bind ?_ fun _ _ => NoUnk.bind (hconv _) fun _ _ =>
        NoUnk.bind (ih _) fun _ _ => NoUnk.ok _
      intro t h
      obtain ⟨e, h1, h2⟩ := mapErr_eq_err.1 h
      cases e with
      | incomplete n => simp [errOfNom] at h2
      | error e => simp only [errOfNom] at h2; subst h2; exact (noUnk_anyFromBer _ t).1 h1
      | failure e => simp only [errOfNom] at h2; subst h2; exact (noUnk_anyFromBer _ t).2 h1

theorem noUnk_objectFromAny {D : Deps} (hD : TimesKnown D) (d : Nat) (a : Any) :
    NoUnk (objectFromAny D d a) := by
  induction d generalizing a with
  | zero => intro t; simp [objectFromAny]
  | succ d ih =>
    unfold objectFromAny
    split
    · exact NoUnk.ok _
    · refine NoUnk.map ?_
      have hcons : NoUnk a.header.assertConstructed := by
        intro t; unfold Header.assertConstructed; split <;> simp
      unfold universalContent
      split
      · split
        · intro t; simp
        · split
          · intro t; simp
          · exact NoUnk.ok _
      · split
        · intro t; simp
        · split
          · intro t; simp
          · split
            · exact NoUnk.ok _
            · intro t; simp
      · refine NoUnk.map ?_
        intro t
        unfold Any.bool
        split
        · split <;> simp
        · simp
      · exact NoUnk.ok _
      · refine NoUnk.map ?_
        rw [enumerated_eq]
        split
        · intro t; simp
        · split
          · exact NoUnk.ok _
          · intro t; simp
      · refine NoUnk.map fun t h => ?_
        have := (hD a.header.constructed a.data t).2
        revert h this
        cases D.generalizedTime a.header.constructed a.data <;> simp [liftExcept]
      · unfold strFromAny
        intro t
        split
        · simp
        · split
          · split <;> simp
          · simp
      · exact NoUnk.ok _
      · exact NoUnk.ok _
      · exact NoUnk.ok _
      · exact NoUnk.ok _
      · exact NoUnk.ok _
      · exact NoUnk.bind hcons fun _ _ => NoUnk.map (noUnk_collectItems ih _ _)
      · exact NoUnk.bind hcons fun _ _ => NoUnk.map (noUnk_collectItems ih _ _)
      · refine NoUnk.map fun t h => ?_
        have := (hD a.header.constructed a.data t).1
        revert h this
        cases D.utcTime a.header.constructed a.data <;> simp [liftExcept]
      · split
        · intro t; simp
        · exact NoUnk.ok _
      · exact NoUnk.ok _

theorem noUnk_derReadElementContentAs {D : Deps} (hD : TimesKnown D) (i : Bytes) (tag : Nat)
    (len : Length) (c : Bool) (d t : Nat) :
    derReadElementContentAs D i tag len c d ≠ .err (.error (.unknownTag t)) := by
  cases len with
  | indefinite => simp [derReadElementContentAs, Length.definite?, liftRes]
  | definite l =>
    by_cases hi : i.length < l
    · simp [derReadElementContentAs, Length.definite?, hi, liftRes]
    · obtain ⟨pre, x, rfl, hl⟩ : ∃ pre x, i = pre ++ x ∧ pre.length = l :=
        ⟨i.take l, i.drop l, by simp, by simp; omega⟩
      rw [derReadElementContentAs_definite _ _ _ _ _ _ _ hl]
      split
      · split
        · simp
        · intro h
          unfold derReadContentBitstring at h
          split at h
          · simp at h
          · split at h
            · simp at h
            · split at h
              · simp at h
              · rcases bind_eq_err.1 h with h | ⟨a, _, h⟩
                · exact (noUnk_takeStreaming _ _ t).1 h
                · split at h
                  · split at h
                    · simp at h
                    · split at h <;> simp at h
                  · simp at h
      · intro h
        rcases bind_eq_err.1 h with h | ⟨a, _, h⟩
        · obtain ⟨e, h1, h2⟩ := mapErr_eq_err.1 h
          simp only [NomErr.error.injEq] at h2
          subst h2
          revert h1
          unfold derCheck derIntegerCheck
          (repeat' split) <;> simp
        · split at h
          · simp at h
          · rcases bind_eq_err.1 h with h | ⟨a, _, h⟩
            · obtain ⟨e, h1, h2⟩ := mapErr_eq_err.1 h
              simp only [NomErr.error.injEq] at h2
              subst h2
              exact noUnk_objectFromAny hD _ _ t h1
            · simp at h

/-- Exact description of `parse_der_recursive` (positive depth). -/
theorem parseDerRecursive_iff {D : Deps} (hD : TimesKnown D) {d : Nat} {i rem : Bytes}
    {o : BerObject} :
    parseDerRecursive D (d + 1) i = .ok (rem, o) ↔
      ∃ hb c, i = hb ++ c ++ rem ∧ DerHeader hb o.header ∧ o.header.length = .definite c.length ∧
        c.length ≤ maxObjectSize ∧
        ((o.header.cls ≠ .universal ∧ o.content = .unknown ⟨o.header, c⟩) ∨
          (o.header.cls = .universal ∧ DerRules o.header.tag c ∧
            Denotes D (d + 1)
              (Header.new .universal o.header.constructed o.header.tag o.header.length) c
              o.content)) := by
  have hun : ∀ (hb c : Bytes) (h : Header), h.length = .definite c.length → ∀ x,
      derUnknown (c ++ x) h (d + 1) = .ok (x, .mk h (.unknown ⟨h, c⟩)) := by
    intro hb c h hl x
    unfold derUnknown
    rw [getObjectContent_definite hl _ _ rfl]
    rfl
  constructor
  · intro h
    unfold parseDerRecursive at h
    obtain ⟨⟨i1, hd⟩, h1, h2⟩ := bind_eq_ok.1 h
    obtain ⟨hb, rfl, H⟩ := headerFromDer_iff.1 h1
    simp only at h2
    cases hl : hd.length with
    | indefinite => exact absurd hl H.definite
    | definite L =>
      rw [hl] at h2
      simp only at h2
      split at h2
      · simp at h2
      · rename_i hmax
        unfold derReadElementContentRecursive at h2
        split at h2
        · rename_i hcls
          unfold derUnknown at h2
          obtain ⟨⟨i2, c⟩, h3, h4⟩ := bind_eq_ok.1 h2
          simp only [ok.injEq, Prod.mk.injEq] at h4
          obtain ⟨rfl, rfl⟩ := h4
          obtain ⟨rfl, hlen⟩ := getObjectContent_def_len hl h3
          exact ⟨hb, c, by simp, H, by rw [← hlen] at hl; exact hl, by omega,
            .inl ⟨hcls, rfl⟩⟩
        · rename_i hcls
          split at h2
          · rename_i r h3
            obtain ⟨i2, x⟩ := r
            simp only [ok.injEq, Prod.mk.injEq] at h2
            obtain ⟨rfl, rfl⟩ := h2
            obtain ⟨l, pre, e1, rfl, e3, _⟩ := derReadElementContentAs_ok h3
            rw [hl] at e1
            simp only [Length.definite.injEq] at e1
            subst e1
            subst e3
            rw [hl] at h3
            obtain ⟨g1, g2, g3⟩ := derReadElementContentAs_iff.1 h3
            refine ⟨hb, pre, by simp, H, hl, by omega, .inr ⟨by simpa using hcls, g1, ?_⟩⟩
            simp only [BerObject.header_mk, hl]
            exact g3
          · rename_i h3
            exact absurd h3 (noUnk_derReadElementContentAs hD _ _ _ _ _ _)
          · simp at h2
          · simp at h2
          · simp at h2
  · rintro ⟨hb, c, rfl, H, hl, hmax, hcase⟩
    unfold parseDerRecursive
    rw [List.append_assoc, derHeader_reads H]
    simp only [ok_bind, hl]
    rw [if_neg (by omega)]
    unfold derReadElementContentRecursive
    rcases hcase with ⟨hcls, hx⟩ | ⟨hcls, hR, hden⟩
    · rw [if_pos hcls, hun hb c _ hl, ← hx]
      simp
    · rw [if_neg (by simpa using hcls), hl]
      rw [hl] at hden
      rw [derReadElementContentAs_iff.2 ⟨hR, .inr hmax, hden⟩]
      simp

end Verif
