import Verif.SpecValue
import Verif.Props.ValidBer
import Verif.Props.Integers
import Verif.Props.Print
import Verif.Props.ValidExact
/-!
# Properties C123 and C124: the values of BER documents come through
-/
namespace Verif
open Outcome Spec

/-! ## Lemmas -/

theorem base256_top {a : UInt8} {rest : Bytes} {n : Nat} (h : base256 (a :: rest) = n) :
    (128 ≤ a.toNat → n.log2 % 8 = 7) ∧ (a ≠ 0 → a.toNat < 128 → n.log2 % 8 ≠ 7) := by
  rw [base256] at h
  have h1 := base256_lt rest
  have ha := a.toNat_lt
  have e1 : (256 : Nat) ^ rest.length = 2 ^ (8 * rest.length) := by rw [Nat.pow_mul]
  rw [e1] at h h1
  constructor
  · intro hb
    have h2 := Nat.mul_le_mul_right (2 ^ (8 * rest.length)) hb
    have h3 := Nat.mul_le_mul_right (2 ^ (8 * rest.length)) (show a.toNat ≤ 255 by omega)
    have hp : 0 < 2 ^ (8 * rest.length) := Nat.pow_pos (by decide)
    have : n.log2 = 8 * rest.length + 7 := by
      refine (Nat.log2_eq_iff ?_).2 ⟨?_, ?_⟩
      · omega
      · rw [Nat.pow_add]; omega
      · rw [show 8 * rest.length + 7 + 1 = 8 * rest.length + 8 from rfl, Nat.pow_add]; omega
    omega
  · intro h0 hb
    have h4 : 1 ≤ a.toNat := by
      rcases Nat.eq_zero_or_pos a.toNat with h | h
      · exact absurd (UInt8.toNat_inj.1 h) h0
      · exact h
    have h2 := Nat.mul_le_mul_right (2 ^ (8 * rest.length)) h4
    have h3 := Nat.mul_le_mul_right (2 ^ (8 * rest.length)) (show a.toNat ≤ 127 by omega)
    have hp : 0 < 2 ^ (8 * rest.length) := Nat.pow_pos (by decide)
    have l1 : 8 * rest.length ≤ n.log2 := (Nat.le_log2 (by omega)).2 (by omega)
    have l2 : n.log2 < 8 * rest.length + 7 := (Nat.log2_lt (by omega)).2 (by rw [Nat.pow_add]; omega)
    omega

/-- The shortest octets of an unsigned number are the octets of the number exactly if its binary digits do not fill them. -/
theorem minOctets_minInt {v : Bytes} {n : Nat} (h0 : 0 < n) (h7 : n.log2 % 8 ≠ 7) :
    MinOctets v n ↔ MinInt v ∧ twosComplement v = n := by
  constructor
  · intro h
    have hn := h.1
    subst hn
    have hh := head_of_minOctets h
    match v, hh with
    | [], _ => simp [base256] at h0
    | a :: rest, hh =>
      have ha : a ≠ 0 := by simpa using hh
      have hb : a.toNat < 128 := Classical.byContradiction fun hb => h7 ((base256_top rfl).1 (by omega))
      have hs : ¬ twosComplement (a :: rest) < 0 := fun hs => by
        have := (isHighestBitSet_iff _).2 hs
        simp only [isHighestBitSet, decide_eq_true_eq] at this
        omega
      refine ⟨⟨by simp, ?_, ?_⟩, twosComplement_nonneg hs⟩
      · intro h9
        obtain ⟨b, r, e, _⟩ := (nine_zero_bits _).1 h9
        cases e
        exact ha rfl
      · intro h9
        have h8 := congrArg List.head? h9
        have : (bitsOf (a :: rest)).head? = some (a.toNat.testBit 7) := rfl
        rw [List.head?_take, if_neg (by decide), this] at h8
        rw [(bits_table' _ a.toNat_lt).1] at h8
        simp only [List.replicate, List.head?_cons, Option.some.injEq, decide_eq_true_eq] at h8
        omega
  · rintro ⟨hm, ht⟩
    have hs : ¬ twosComplement v < 0 := by omega
    have hv := twosComplement_nonneg hs
    have hn : base256 v = n := by omega
    subst hn
    refine minOctets_of_head ?_
    match v with
    | [] => simp [base256] at h0
    | [a] =>
      intro h
      have : a = 0 := by simpa using h
      subst this
      simp [base256] at h0
    | a :: b :: rest =>
      intro h
      have : a = 0 := by simpa using h
      subst this
      have hb : 128 ≤ b.toNat := Classical.byContradiction fun hb =>
        hm.2.1 ((nine_zero_bits _).2 ⟨b, rest, rfl, by omega⟩)
      refine h7 ((base256_top (a := b) (rest := rest) ?_).1 hb)
      simp [base256]
theorem intAnswers {h : Header} {c : Bytes} (hm : MinInt c) : IntAnswers (.mk h (.integer c)) (twosComplement c) := by
  have key : ∀ n, 1 ≤ n → 8 * n - 1 + 1 = 8 * n → ∀ z : Int, z = twosComplement c →
      (-(2 ^ (8 * n - 1) : Nat) ≤ z → z < (2 ^ (8 * n - 1) : Nat) → (Content.integer c).asSignedInt n = .ok z) ∧
      (z < -(2 ^ (8 * n - 1) : Nat) ∨ (2 ^ (8 * n) : Nat) ≤ z → (Content.integer c).asSignedInt n = .err .integerTooLarge) := by
    intro n hn hb z hz
    subst hz
    rw [asSignedInt_eq n hn]
    have h3 : (2 : Nat) ^ (8 * n) = 2 * 2 ^ (8 * n - 1) := by rw [← Nat.pow_succ']; congr 1; omega
    have h4 : 0 < 2 ^ (8 * n - 1) := Nat.pow_pos (by decide)
    have h5 : twosComplement c < 0 → (c.length ≤ n ↔ -(2 ^ (8 * n - 1) : Nat) ≤ twosComplement c) :=
      minimal_negative n hn c hm
    rw [h3]
    generalize 2 ^ (8 * n - 1) = m at *
    generalize twosComplement c = t at *
    push_cast at *
    constructor
    · intro g1 g2
      by_cases h0 : t < 0
      · rw [if_pos h0, if_neg (by have := (h5 h0).2 g1; omega)]
      · rw [if_neg h0, if_neg (by omega), if_pos (by omega)]
    · intro g
      by_cases h0 : t < 0
      · rw [if_pos h0, if_pos]
        by_cases hl : c.length ≤ n
        · have := (h5 h0).1 hl; omega
        · omega
      · rw [if_neg h0, if_pos (by omega)]
  have u : ∀ bits : Nat, unsignedResult bits (twosComplement c) =
      (if twosComplement c < 0 then .err .integerNegative
        else if twosComplement c < (2 ^ bits : Nat) then .ok (twosComplement c).toNat else .err .integerTooLarge) := by
    intro bits
    unfold unsignedResult
    generalize twosComplement c = t
    by_cases h0 : t < 0
    · rw [if_pos h0, if_pos h0]
    · rw [if_neg h0, if_neg h0]
      by_cases h1 : t < (2 ^ bits : Nat)
      · rw [if_neg (by omega), if_pos h1]
      · rw [if_pos (by omega), if_neg h1]
  refine ⟨C20_as_bigint_exact _ c rfl, C20_as_biguint_exact _ c rfl, ?_, ?_, ?_⟩
  · rw [C17_as_u64_exact _ c rfl, u 64]; rfl
  · rw [C17_as_u32_exact _ c rfl, u 32]; rfl
  obtain ⟨a1, a2⟩ := key 8 (by decide) (by decide) _ rfl
  obtain ⟨b1, b2⟩ := key 4 (by decide) (by decide) _ rfl
  exact ⟨a1, a2, b1, b2⟩

theorem bitAnswers {h : Header} {u : UInt8} {s : Bytes} (hu : u.toNat ≤ 7) (hs : s = [] → u = 0) :
    BitAnswers (.mk h (.bitString u s)) ((bitsOf s).take (8 * s.length - u.toNat)) := by
  have hl : u.toNat ≤ 8 * s.length := by
    cases s with
    | nil => simp [hs rfl]
    | cons a s => simp only [List.length_cons]; omega
  have hlen : ((bitsOf s).take (8 * s.length - u.toNat)).length = 8 * s.length - u.toNat := by
    rw [List.length_take, bitsOf_length]; omega
  refine ⟨u, s, rfl, rfl, rfl, by omega, hu, ?_, ?_⟩
  · intro i hi
    rw [C22_is_set]
    rw [hlen] at hi
    rw [List.getElem?_eq_getElem (by rw [bitsOf_length]; omega), List.getElem_take]
    simp
  · rw [C21_as_u64_bitstring _ u s rfl, bitStringResult, bitsOf_length, if_neg (by omega), hlen]
    by_cases h : 8 * s.length - u.toNat ≤ 64
    · rw [if_neg (by omega), if_pos h]
    · rw [if_pos (by omega), if_neg h]

theorem strTag_lt (k : StrKind) : strTag k < 31 := by cases k <;> decide

/-- Primitive contents octets are read as their value, and written with the same value. -/
theorem means_leaf {D : Deps} {h : Header} {c : Bytes} {v : Value} (hc : h.cls = .universal) (hk : h.constructed = false)
    (ht : h.tag = v.num) (hl : h.length = .definite c.length) (hb : BerPrim v.num c) (hm : Means D v c)
    (hr : Readable false v) : ∃ x, Leaf D h c x ∧ Answers (.mk h x) v ∧
      (Rewritable false v → ∀ c', EncodesC D x c' → BerPrim v.num c' ∧ Means D v c') := by
  cases v with
  | boolean b =>
    obtain ⟨o, rfl, ho⟩ := hm
    refine ⟨.boolean (decide (o ≠ 0)), ⟨hc, ht, hl, o, rfl, rfl⟩, ?_, ?_⟩
    · show Outcome.ok _ = Outcome.ok _
      congr 1
      rw [Bool.eq_iff_iff, ho]; simp
    · intro _ c' (hc' : c' = _)
      subst hc'
      refine ⟨rfl, _, rfl, ?_⟩
      by_cases h0 : o = 0 <;> simp [h0, ho]
  | integer z =>
    obtain rfl : twosComplement c = z := hm
    exact ⟨.integer c, ⟨hc, ht, rfl⟩, intAnswers hb, fun _ c' hc' => by cases hc'; exact ⟨hb, rfl⟩⟩
  | bits bs =>
    obtain ⟨u, s, rfl, rfl⟩ := hm
    have hb0 := hb
    obtain ⟨u', s', he, h1, h2⟩ := hb
    cases he
    exact ⟨.bitString u s, ⟨hc, ht, hk, rfl⟩, bitAnswers h1 h2, fun _ c' hc' => by cases hc'; exact ⟨hb0, u, s, rfl, rfl⟩⟩
  | octets s =>
    obtain rfl : c = s := hm
    exact ⟨.octetString c, ⟨hc, ht, rfl⟩, rfl, fun _ c' hc' => by cases hc'; exact ⟨hb, rfl⟩⟩
  | null => exact ⟨.null, ⟨hc, ht⟩, rfl, fun _ c' hc' => by cases hc'; exact ⟨rfl, rfl⟩⟩
  | oid arcs => exact ⟨.oid c, ⟨hc, ht, rfl⟩, ⟨c, rfl, hm⟩, fun _ c' hc' => by cases hc'; exact ⟨hb, hm⟩⟩
  | relativeOid arcs => exact ⟨.relativeOid c, ⟨hc, ht, rfl⟩, ⟨c, rfl, hm⟩, fun _ c' hc' => by cases hc'; exact ⟨hb, hm⟩⟩
  | enumerated z =>
    obtain rfl : twosComplement c = z := hm
    obtain ⟨_, h0, h1⟩ := hr
    have e := twosComplement_nonneg (bs := c) (by omega)
    rw [e] at h0 h1 ⊢
    have h2 : base256 c < 2 ^ 32 := by omega
    refine ⟨.enum (base256 c), ⟨hc, ht, hk, rfl, h2⟩, ⟨h0, rfl, ?_⟩, ?_⟩
    · show (if 4294967295 < base256 c then _ else _) = _
      rw [if_neg (by omega)]
      rfl
    · rintro ⟨_, w1, _, w2⟩ c' (hc' : MinOctets c' (base256 c % 2 ^ 64))
      rw [Nat.mod_eq_of_lt (by omega)] at hc'
      exact (minOctets_minInt (by omega) w2).1 hc'
  | text k cs =>
    obtain ⟨hp, h1, rfl⟩ := hm
    have hu : IsUtf8 (cs.flatMap utf8Enc) := ⟨cs, h1, rfl⟩
    refine ⟨.str k (cs.flatMap utf8Enc), ⟨hc, ht, hk, rfl, ?_, hu⟩, ⟨h1, rfl, rfl⟩,
      fun _ c' hc' => by cases hc'; exact ⟨hb, hp, h1, rfl⟩⟩
    cases k with
    | utf8 => exact .inl rfl
    | numeric => exact hb
    | printable => exact hb
    | ia5 => exact hb
    | visible => exact fun b hb' => ⟨(hb b hb').1, by have := (hb b hb').2; omega⟩
    | _ => simp [PlainText] at hp
  | universalText cs =>
    obtain ⟨h1, rfl⟩ := hm
    exact ⟨.universalString _, ⟨hc, ht, hk, rfl⟩, ⟨h1, rfl⟩, fun _ c' hc' => by cases hc'; exact ⟨hb, h1, rfl⟩⟩
  | bmp cs =>
    obtain ⟨h1, rfl⟩ := hm
    exact ⟨.bmpString _, ⟨hc, ht, hk, rfl, cs, h1, rfl⟩, ⟨h1, rfl⟩, fun _ c' hc' => by cases hc'; exact ⟨hb, h1, rfl⟩⟩
  | utcTime t => exact ⟨.utcTime t, ⟨hc, ht, by rw [hk]; exact hm⟩, rfl, fun w => w.2.elim⟩
  | generalizedTime t => exact ⟨.generalizedTime t, ⟨hc, ht, by rw [hk]; exact hm⟩, rfl, fun w => w.2.elim⟩
  | sequence _ | set _ | other _ _ _ _ => exact hm.elim

/-- `o` is written, as an encoding of `v`, if all values can be written. -/
def Rewrites (D : Deps) (P : Bool → Value → Prop) (d : Nat) (o : BerObject) (v : Value) : Prop :=
  (∀ s v, P s v → Rewritable s v) → TagsOk o ∧ ∀ (X : Bytes → Prop) (N m : Nat) (e : Bytes), Encodes D o e →
    Codes D X P (N + 1) d (m + 1) v e

theorem leaf_tagsOk {D : Deps} {h : Header} {c : Bytes} {x : Content} (hx : Leaf D h c x) : TagsOkC x := by
  cases x <;> first | exact hx.elim | trivial

theorem tagsOk_list : ∀ {l : List BerObject}, (∀ o ∈ l, TagsOk o) → TagsOkL l
  | [], _ => trivial
  | o :: l, H => ⟨H o (by simp), tagsOk_list fun x hx => H x (by simp [hx])⟩

theorem minIdent_octet {b : UInt8} {cls : Class} {k : Bool} {num : Nat} (h : IdentOctets [b] cls k num) :
    MinIdent [b] cls k num := ⟨h, fun _ h => (identOctets_lt h).1⟩

theorem value_items {D : Deps} {P : Bool → Value → Prop} {d : Nat} : ∀ {ps : List (Value × Bytes)},
    (∀ p ∈ ps, ∃ h c x, Framed 50 p.2 h c ∧ Denotes D d h c x ∧ HasValue (.mk h x) p.1 ∧ Rewrites D P d (.mk h x) p.1) →
    ∃ (items : List Item) (qs : List (BerObject × Value)), items.flatMap Item.bytes = (ps.map Prod.snd).flatten ∧
      (∀ it ∈ items, Framed 50 it.bytes it.header it.body) ∧ (∀ it ∈ items, Denotes D d it.header it.body it.value) ∧
      items.map (fun it => BerObject.mk it.header it.value) = qs.map Prod.fst ∧ ps.map Prod.fst = qs.map Prod.snd ∧
      ∀ q ∈ qs, HasValue q.1 q.2 ∧ Rewrites D P d q.1 q.2
  | [], _ => ⟨[], [], rfl, by simp, by simp, rfl, rfl, by simp⟩
  | p :: ps, H => by
    obtain ⟨items, qs, k1, k2, k3, k4, k5, k6⟩ := value_items (ps := ps) fun x hx => H x (by simp [hx])
    obtain ⟨h, c, x, m1, m2, m3, m4⟩ := H p (by simp)
    refine ⟨⟨p.2, h, c, x⟩ :: items, (.mk h x, p.1) :: qs, by simp [k1], ?_, ?_, by simp [k4], by simp [k5], ?_⟩
    · intro it hit
      rcases List.mem_cons.1 hit with rfl | hit
      · exact m1
      · exact k2 it hit
    · intro it hit
      rcases List.mem_cons.1 hit with rfl | hit
      · exact m2
      · exact k3 it hit
    · intro q hq
      rcases List.mem_cons.1 hq with rfl | hq
      · exact ⟨m3, m4⟩
      · exact k6 q hq

theorem rewrites_list {D : Deps} {P : Bool → Value → Prop} {d : Nat} (X : Bytes → Prop) (N : Nat)
    (hW : ∀ s v, P s v → Rewritable s v) : ∀ {qs : List (BerObject × Value)},
    (∀ q ∈ qs, Rewrites D P d q.1 q.2) → ∀ {c : Bytes}, EncodesL D (qs.map Prod.fst) c →
    ∃ rs : List (Value × Bytes), rs.map Prod.fst = qs.map Prod.snd ∧ c = (rs.map Prod.snd).flatten ∧
      ∀ r ∈ rs, Codes D X P (N + 1) d (N + 1) r.1 r.2
  | [], _, c, h => ⟨[], rfl, h, by simp⟩
  | q :: qs, H, c, h => by
    obtain ⟨a, b, rfl, h1, h2⟩ := h
    obtain ⟨rs, k1, rfl, k3⟩ := rewrites_list X N hW (fun q hq => H q (by simp [hq])) h2
    refine ⟨(q.2, a) :: rs, by simp [k1], by simp, ?_⟩
    intro r hr
    rcases List.mem_cons.1 hr with rfl | hr
    · exact (H q (by simp) hW).2 X N N a h1
    · exact k3 r hr

theorem value_list {D : Deps} {P : Bool → Value → Prop} {d num : Nat} {ps : List (Value × Bytes)} {v : Value} {h : Header}
    (hu : h.cls = .universal) (hk : h.constructed = true) (ht : h.tag = num) (hv : ListOf num (ps.map Prod.fst) v)
    (H : ∀ p ∈ ps, ∃ h c x, Framed 50 p.2 h c ∧ Denotes D d h c x ∧ HasValue (.mk h x) p.1 ∧ Rewrites D P d (.mk h x) p.1) :
    ∃ x, Denotes D (d + 1) h (ps.map Prod.snd).flatten x ∧ HasValue (.mk h x) v ∧ Rewrites D P (d + 1) (.mk h x) v := by
  obtain ⟨items, qs, k1, k2, k3, k4, k5, k6⟩ := value_items H
  rw [← k1]
  rw [k5] at hv
  rcases hv with ⟨rfl, rfl⟩ | ⟨rfl, rfl⟩
  · refine ⟨_, .sequence d h items hu ht hk k2 k3, ?_, ?_⟩
    · exact .sequence _ qs hu ht (congrArg _ k4) fun q hq => (k6 q hq).1
    · rw [k4]
      refine fun hW => ⟨⟨show h.tag ≤ 30 by omega, tagsOk_list fun o ho => ?_⟩, ?_⟩
      · obtain ⟨q, hq, rfl⟩ := List.mem_map.1 ho
        exact ((k6 q hq).2 hW).1
      rintro X N m e ⟨b, len, w, rfl, g1, g2, g3⟩
      obtain ⟨rs, r1, rfl, r3⟩ := rewrites_list X N hW (fun q hq => (k6 q hq).2) g3
      rw [← r1]
      rw [hu, hk, ht] at g1
      exact .list d m [b] len rs 16 _ (minIdent_octet g1) (.inl ⟨rfl, rfl⟩) g2.1 r3
  · refine ⟨_, .set d h items hu ht hk k2 k3, ?_, ?_⟩
    · exact .set _ qs hu ht (congrArg _ k4) fun q hq => (k6 q hq).1
    · rw [k4]
      refine fun hW => ⟨⟨show h.tag ≤ 30 by omega, tagsOk_list fun o ho => ?_⟩, ?_⟩
      · obtain ⟨q, hq, rfl⟩ := List.mem_map.1 ho
        exact ((k6 q hq).2 hW).1
      rintro X N m e ⟨b, len, w, rfl, g1, g2, g3⟩
      obtain ⟨rs, r1, rfl, r3⟩ := rewrites_list X N hW (fun q hq => (k6 q hq).2) g3
      rw [← r1]
      rw [hu, hk, ht] at g1
      exact .list d m [b] len rs 17 _ (minIdent_octet g1) (.inr ⟨rfl, rfl⟩) g2.1 r3

theorem value_num_lt {D : Deps} {v : Value} {c : Bytes} (h : Means D v c) : v.num < 31 := by
  cases v with
  | text k _ => exact strTag_lt k
  | sequence _ | set _ | other _ _ _ _ => exact h.elim
  | _ => simp [Value.num]

theorem means_cls {D : Deps} {v : Value} {c : Bytes} (h : Means D v c) : v.cls = .universal := by
  cases v with
  | other _ _ _ _ => exact h.elim
  | _ => rfl

theorem value_other {D : Deps} {P : Bool → Value → Prop} {d : Nat} {h : Header} {c : Bytes} (hu : h.cls ≠ .universal)
    (hP : P false (.other h.cls h.constructed h.tag c)) :
    Leaf D h c (.unknown ⟨h, c⟩) ∧ HasValue (.mk h (.unknown ⟨h, c⟩)) (.other h.cls h.constructed h.tag c) ∧
    Rewrites D P (d + 1) (.mk h (.unknown ⟨h, c⟩)) (.other h.cls h.constructed h.tag c) := by
  refine ⟨⟨rfl, .inl hu⟩, .leaf _ _ rfl rfl ⟨hu, rfl, rfl⟩, ?_⟩
  refine fun hW => ⟨⟨(hW _ _ hP).2, trivial⟩, ?_⟩
  rintro X N m e ⟨b, len, w, rfl, g1, g2, rfl⟩
  exact .other d m [b] len _ _ _ _ hu (minIdent_octet g1) g2.1 hP

theorem codes_denotes {D : Deps} {P : Bool → Value → Prop} (hP : ∀ s v, P s v → Readable s v) {d n : Nat} {v : Value}
    {e : Bytes} (H : Codes D LooseEoc P 50 d n v e) (hd : n ≤ 50) (hl : e.length < 2 ^ 64) :
    (∃ h c x, Framed 50 e h c ∧ Denotes D d h c x ∧ HasValue (.mk h x) v ∧ Rewrites D P d (.mk h x) v) ∧
      (¬ LooseEoc e → Element LooseEoc LooseEoc n e) := by
  induction H with
  | primitive d n id len c v h1 h2 h3 h4 h5 =>
    have hb := berHeader_of h1 h2 (by have := value_num_lt h4; omega) (by simp only [List.length_append] at hl; omega)
    rw [← List.append_assoc]
    refine ⟨⟨⟨.universal, false, v.num, .definite c.length, some id⟩, c, ?_⟩, fun hx => .definite n _ _ c _ hb rfl rfl hx⟩
    obtain ⟨x, x1, x2, x3⟩ := means_leaf (h := ⟨.universal, false, v.num, .definite c.length, some id⟩) rfl rfl rfl rfl h3 h4
      (hP _ _ h5)
    refine ⟨x, .definite _ c _ hb rfl, .leaf _ _ _ _ x1, .leaf _ _ (means_cls h4).symm rfl x2, ?_⟩
    refine fun hW => ⟨⟨show v.num ≤ 30 by have := value_num_lt h4; omega, leaf_tagsOk x1⟩, ?_⟩
    rintro X N m e ⟨b, len, w, rfl, g1, g2, g3⟩
    obtain ⟨y1, y2⟩ := x3 (hW _ _ h5) w g3
    exact .primitive d m [b] len w v (minIdent_octet g1) g2.1 y1 y2 h5
  | other d n id len c cls k num h0 h1 h2 h3 =>
    have hb := berHeader_of h1 h2 (hP _ _ h3).2 (by simp only [List.length_append] at hl; omega)
    rw [← List.append_assoc]
    obtain ⟨x1, x2, x3⟩ := value_other (D := D) (d := d) (h := ⟨cls, k, num, .definite c.length, some id⟩) h0 h3
    exact ⟨⟨_, c, _, .definite _ c _ hb rfl, .leaf _ _ _ _ x1, x2, x3⟩, fun hx => .definite n _ _ c _ hb rfl rfl hx⟩
  | otherIndefinite d n id es cls num h0 h1 h3 h4 =>
    have hb := berHeader_indefinite h1 (hP _ _ h3).2
    have h5 : ∀ e ∈ es, Element LooseEoc LooseEoc (n + 1) e := fun e he => Element.weaken looseEoc_of_isEoc (h4 e he)
    rw [show id ++ 0x80 :: (es.flatten ++ [0, 0]) = (id ++ [0x80]) ++ (es.flatten ++ [0, 0]) by simp]
    obtain ⟨x1, x2, x3⟩ := value_other (D := D) (d := d) (h := ⟨cls, true, num, .indefinite, some id⟩) h0 h3
    exact ⟨⟨_, _, _, framed_indefinite hb rfl h5 (by omega), .leaf _ _ _ _ x1, x2, x3⟩,
      fun _ => .indefinite n _ es _ _ hb rfl h5 (looseEoc_of_isEoc _ rfl)⟩
  | list d n id len ps num v h1 h2 h3 h4 ih =>
    have hlen : (ps.map Prod.snd).flatten.length < 2 ^ 64 := by simp only [List.length_append] at hl; omega
    have hb := berHeader_of h1 h3 (by rcases h2 with ⟨rfl, _⟩ | ⟨rfl, _⟩ <;> decide) hlen
    rw [← List.append_assoc]
    obtain ⟨x, x1, x2, x3⟩ := value_list (D := D) (P := P) (d := d)
      (h := ⟨.universal, true, num, .definite (ps.map Prod.snd).flatten.length, some id⟩) rfl rfl rfl h2
      fun p hp => (ih p hp (by omega) (Nat.lt_of_le_of_lt (length_le_flatten (List.mem_map_of_mem hp)) hlen)).1
    exact ⟨⟨_, _, x, .definite _ _ _ hb rfl, x1, x2, x3⟩, fun hx => .definite n _ _ _ _ hb rfl rfl hx⟩
  | listIndefinite d n id ps num v h1 h2 h3 h4 ih =>
    have hlen : (ps.map Prod.snd).flatten.length < 2 ^ 64 := by
      simp only [List.length_append, List.length_cons] at hl; omega
    have hb := berHeader_indefinite h1 (by rcases h2 with ⟨rfl, _⟩ | ⟨rfl, _⟩ <;> decide)
    have ih' := fun p hp => ih p hp (by omega) (Nat.lt_of_le_of_lt (length_le_flatten (List.mem_map_of_mem hp)) hlen)
    have h5 : ∀ e ∈ ps.map Prod.snd, Element LooseEoc LooseEoc (n + 1) e := by
      intro e he
      obtain ⟨p, hp, rfl⟩ := List.mem_map.1 he
      exact (ih' p hp).2 (h4 p hp)
    rw [show id ++ 0x80 :: ((ps.map Prod.snd).flatten ++ [0, 0]) =
      (id ++ [0x80]) ++ ((ps.map Prod.snd).flatten ++ [0, 0]) by simp]
    obtain ⟨x, x1, x2, x3⟩ := value_list (D := D) (P := P) (d := d)
      (h := ⟨.universal, true, num, .indefinite, some id⟩) rfl rfl rfl h2 fun p hp => (ih' p hp).1
    exact ⟨⟨_, _, x, framed_indefinite hb rfl h5 (by omega), x1, x2, x3⟩,
      fun _ => .indefinite n _ _ _ _ hb rfl h5 (looseEoc_of_isEoc _ rfl)⟩
  | segments d n id len ps h1 h2 h3 => exact absurd (hP _ _ h3).1 (by simp)
  | segmentsIndefinite d n id ps h1 h2 => exact absurd (hP _ _ h2).1 (by simp)

/-! ## C123 -/

/-- C123 in full: from every BER encoding of a value (of less than 2^64 octets) `parse_ber` makes an object whose accessors
answer with the value, and stops at its end. -/
def C123Statement : Prop :=
  ∀ (D : Deps) (N d n : Nat) (v : Value) (e rest : Bytes), Codes D IsEoc (fun _ _ => True) N d n v e → e.length < 2 ^ 64 →
    ∃ o, parseBer D (e ++ rest) = .ok (rest, o) ∧ HasValue o v

/-- SEQUENCE { INTEGER -129 }, with a length in the long form. -/
theorem codes_small (D : Deps) (P : Bool → Value → Prop) (hP : P false (.integer (-129))) :
    Codes D LooseEoc P 50 50 50 (.sequence [.integer (-129)]) [0x30, 0x81, 0x04, 0x02, 0x02, 0xff, 0x7f] :=
  .list 49 49 [0x30] [0x81, 0x04] [(.integer (-129), [0x02, 0x02, 0xff, 0x7f])] 16 _ (minIdent_low 0x30 (by decide)) (.inl ⟨rfl, rfl⟩)
    (.long 0x81 [4] (by decide) (by decide) rfl) (by
      simp only [List.mem_singleton, forall_eq]
      exact .primitive 48 49 [0x02] [0x02] [0xff, 0x7f] (.integer (-129)) (minIdent_low 0x02 (by decide)) (.short 2 (by decide))
        ⟨by simp, by decide, by decide⟩ (show twosComplement [0xff, 0x7f] = -129 by decide +kernel) hP)

/-- C123, what holds: so it is for the values that are `Readable`, in encodings with at most `d` levels of SEQUENCE and SET
and 50 of indefinite lengths, and without elements of number 0 and length 0 directly inside an indefinite length, with
`parse_ber_recursive` and the depth limit `d`, and so with `parse_ber` if `d` is 50.
Missing: OCTET STRINGs in segments, large and negative enumerated values, and the limits of C121. -/
theorem C123_value_partial (D : Deps) (d : Nat) (v : Value) (e rest : Bytes) (H : Codes D LooseEoc Readable 50 d 50 v e)
    (hl : e.length < 2 ^ 64) : ∃ o, parseBerRecursive D d (e ++ rest) = .ok (rest, o) ∧ HasValue o v := by
  obtain ⟨⟨h, c, x, h1, h2, h3, _⟩, _⟩ := codes_denotes (fun _ _ h => h) H (by omega) hl
  exact ⟨.mk h x, parseBerRecursive_iff.2 ⟨e, c, rfl, h1, h2⟩, h3⟩

example := C123_value_partial Tests.D0 50 _ _ [0x07] (codes_small _ _ ⟨rfl, trivial⟩) (by decide)

/-- C123 for `parse_der`: if it accepts the encoding then it stops at its end and the object has the value.
Missing: as above; which encodings are accepted is C102. -/
theorem C123_der_partial (D : Deps) (hT : TimesKnown D) (d : Nat) (v : Value) (e rest rem : Bytes) (o : BerObject)
    (H : Codes D LooseEoc Readable 50 (d + 1) 50 v e) (hl : e.length < 2 ^ 64)
    (h : parseDerRecursive D (d + 1) (e ++ rest) = .ok (rem, o)) : rem = rest ∧ HasValue o v := by
  obtain ⟨o', h1, h2⟩ := C123_value_partial D (d + 1) v e rest H hl
  obtain ⟨o'', h3, _, h4⟩ := C36_parse_der_partial D hT d _ _ _ h
  rw [h1] at h3
  cases h3
  refine ⟨rfl, ?_⟩
  rcases h4 with rfl | ⟨c, h5, rfl⟩
  · exact h2
  · obtain ⟨hd, x⟩ := o
    replace h5 : x = .unknown ⟨Header.new .universal hd.constructed hd.tag hd.length, c⟩ := h5
    subst h5
    cases h2 with
    | leaf _ v g1 g2 g3 =>
      refine .leaf _ v g1 g2 ?_
      cases v with
      | oid _ | relativeOid _ => obtain ⟨_, g, _⟩ := g3; cases g
      | bits _ => obtain ⟨_, _, g, _⟩ := g3; cases g
      | enumerated _ => obtain ⟨_, g, _⟩ := g3; cases g
      | integer _ => obtain ⟨g, _⟩ := g3; cases g
      | sequence _ | set _ => exact g3.elim
      | boolean _ | null | utcTime _ | generalizedTime _ => cases g3
      | text _ _ => obtain ⟨_, g, _⟩ := g3; cases g
      | _ => exact g3
    | sequence _ _ _ _ g => cases g
    | set _ _ _ _ g => cases g

/-- `parse_der` refuses lengths in the long form; here the INTEGER alone. -/
example := C123_der_partial Tests.D0 (fun _ _ _ => by simp [Tests.D0]) 49 (.integer (-129)) _ [0x07] [0x07] _
  (.primitive 49 49 [0x02] [0x02] [0xff, 0x7f] (.integer (-129)) (minIdent_low 0x02 (by decide)) (.short 2 (by decide))
    ⟨by simp, by decide, by decide⟩ (show twosComplement [0xff, 0x7f] = -129 by decide +kernel) ⟨rfl, trivial⟩) (by decide) rfl

/-- C123 is false for an OCTET STRING in segments: the answer is the octets of the segments with their tags and lengths. -/
theorem C123_segments_counterexample (D : Deps) :
    Codes D IsEoc (fun _ _ => True) 1 2 1 (.octets [0x41, 0x42]) [0x24, 0x06, 0x04, 0x01, 0x41, 0x04, 0x01, 0x42] ∧
    ∃ o, parseBer D [0x24, 0x06, 0x04, 0x01, 0x41, 0x04, 0x01, 0x42] = .ok ([], o) ∧
      o.content.asSlice = .ok [0x04, 0x01, 0x41, 0x04, 0x01, 0x42] ∧ ¬ HasValue o (.octets [0x41, 0x42]) := by
  refine ⟨?_, _, rfl, rfl, ?_⟩
  · refine .segments 1 0 [0x24] [0x06] [([0x41], [0x04, 0x01, 0x41]), ([0x42], [0x04, 0x01, 0x42])]
      (minIdent_low 0x24 (by decide)) (.short 6 (by decide)) trivial ?_
    simp only [List.forall_mem_cons, List.not_mem_nil, false_imp_iff, implies_true, and_true]
    exact ⟨.primitive 0 0 [0x04] [0x01] [0x41] (.octets [0x41]) (minIdent_low 0x04 (by decide)) (.short 1 (by decide))
        trivial rfl trivial,
      .primitive 0 0 [0x04] [0x01] [0x42] (.octets [0x42]) (minIdent_low 0x04 (by decide)) (.short 1 (by decide))
        trivial rfl trivial⟩
  · intro h
    cases h with
    | leaf _ _ _ _ g => cases g

/-- C123 is false for negative enumerated values: -1 is answered as 255. -/
theorem C123_enumerated_counterexample (D : Deps) :
    Codes D IsEoc (fun _ _ => True) 1 1 1 (.enumerated (-1)) [0x0a, 0x01, 0xff] ∧
    ∃ o, parseBer D [0x0a, 0x01, 0xff] = .ok ([], o) ∧ o.asU64 = .ok 255 ∧ HasValue o (.enumerated 255) ∧
      ¬ HasValue o (.enumerated (-1)) := by
  refine ⟨.primitive 0 0 [0x0a] [0x01] [0xff] (.enumerated (-1)) (minIdent_low 0x0a (by decide)) (.short 1 (by decide))
    ⟨by simp, by decide, by decide⟩ (by decide : twosComplement [0xff] = -1) trivial, _, rfl, rfl,
    .leaf _ _ rfl rfl ⟨by decide, rfl, rfl⟩, ?_⟩
  intro h
  cases h with
  | leaf _ _ _ _ g => exact absurd g.1 (by decide)

/-- C123 as stated is false. -/
theorem C123_full_counterexample : ¬ C123Statement := fun H => by
  obtain ⟨h1, o, h2, _, h3⟩ := C123_segments_counterexample Tests.D0
  obtain ⟨o', h4, h5⟩ := H Tests.D0 1 2 1 _ _ [] h1 (by decide)
  rw [List.append_nil, h2] at h4
  cases h4
  exact h3 h5

/-! ## C124 -/

/-- C124 in full: an object parsed from an encoding of a value is written as an encoding of the same value. -/
def C124Statement : Prop :=
  ∀ (D : Deps) (N d n : Nat) (v : Value) (e rest e' : Bytes) (o : BerObject), Codes D IsEoc (fun _ _ => True) N d n v e →
    e.length < 2 ^ 64 → parseBer D (e ++ rest) = .ok (rest, o) → toVec D o = .ok e' → e'.length < 2 ^ 64 →
    ∃ N d n, Codes D IsEoc (fun _ _ => True) N d n v e'

/-- C124, what holds: so it is for values that are `Rewritable` and `Readable`, within the limits of C123; they are written,
and with definite lengths.  Missing: enumerated values
whose binary digits fill their octets and 0, times, tag numbers above 30, and what C123 is missing. -/
theorem C124_rewritten_partial (D : Deps) (d : Nat) (v : Value) (e rest : Bytes)
    (H : Codes D LooseEoc (fun s v => Readable s v ∧ Rewritable s v) 50 d 50 v e) (hl : e.length < 2 ^ 64) :
    ∃ o, parseBerRecursive D d (e ++ rest) = .ok (rest, o) ∧ HasValue o v ∧
      ∃ e', toVec D o = .ok e' ∧
        (e'.length < 2 ^ 64 → Codes D IsEoc (fun s v => Readable s v ∧ Rewritable s v) 1 d 1 v e') := by
  obtain ⟨⟨h, c, x, h1, h2, h3, h4⟩, _⟩ := codes_denotes (fun _ _ h => h.1) H (by omega) hl
  obtain ⟨h5, h6⟩ := h4 fun _ _ h => h.2
  obtain ⟨e', he⟩ := C49_total D _ h5
  exact ⟨.mk h x, parseBerRecursive_iff.2 ⟨e, c, rfl, h1, h2⟩, h3, e', he, fun hl' =>
    h6 IsEoc 0 0 e' ((C49_exact D _ e' hl').1 he)⟩

example := C124_rewritten_partial Tests.D0 50 _ _ [0x07] (codes_small _ _ ⟨⟨rfl, trivial⟩, rfl, trivial⟩) (by decide)

set_option maxRecDepth 10000 in
/-- C124 is false for enumerated values: 128 is written as -128, and 0 as an element that no value has. -/
theorem C124_enumerated_counterexample (D : Deps) :
    (Codes D IsEoc (fun _ _ => True) 1 1 1 (.enumerated 128) [0x0a, 0x02, 0x00, 0x80] ∧
      (∃ o, parseBer D [0x0a, 0x02, 0x00, 0x80] = .ok ([], o) ∧ HasValue o (.enumerated 128) ∧
        toVec D o = .ok [0x0a, 0x01, 0x80]) ∧
      Codes D IsEoc (fun _ _ => True) 1 1 1 (.enumerated (-128)) [0x0a, 0x01, 0x80]) ∧
    (Codes D IsEoc (fun _ _ => True) 1 1 1 (.enumerated 0) [0x0a, 0x01, 0x00] ∧
      ∃ o, parseBer D [0x0a, 0x01, 0x00] = .ok ([], o) ∧ HasValue o (.enumerated 0) ∧ toVec D o = .ok [0x0a, 0x00]) ∧
    ∀ (P : Bool → Value → Prop) (N d n : Nat) (z : Int), ¬ Codes D IsEoc P N d n (.enumerated z) [0x0a, 0x00] := by
  refine ⟨⟨.primitive 0 0 [0x0a] [0x02] [0x00, 0x80] (.enumerated 128) (minIdent_low 0x0a (by decide)) (.short 2 (by decide))
    ⟨by simp, by decide, by decide⟩ (by decide : twosComplement [0x00, 0x80] = 128) trivial,
    ⟨_, rfl, .leaf _ _ rfl rfl ⟨by decide, rfl, rfl⟩, rfl⟩,
    .primitive 0 0 [0x0a] [0x01] [0x80] (.enumerated (-128)) (minIdent_low 0x0a (by decide)) (.short 1 (by decide))
    ⟨by simp, by decide, by decide⟩ (by decide : twosComplement [0x80] = -128) trivial⟩,
    ⟨.primitive 0 0 [0x0a] [0x01] [0x00] (.enumerated 0) (minIdent_low 0x0a (by decide)) (.short 1 (by decide))
    ⟨by simp, by decide, by decide⟩ (by decide : twosComplement [0x00] = 0) trivial,
    ⟨_, rfl, .leaf _ _ rfl rfl ⟨by decide, rfl, rfl⟩, rfl⟩⟩, ?_⟩
  intro P N d n z H
  generalize hv : Value.enumerated z = v at H
  generalize he : ([0x0a, 0x00] : Bytes) = e at H
  cases H with
  | primitive d n id len c v h1 h2 h3 =>
    subst hv
    have g1 := (identOctets_lt h1.1).1
    have g2 : 1 ≤ len.length := by
      cases len with
      | nil => cases h2
      | cons => simp
    have g3 := congrArg List.length he
    simp only [List.length_append, List.length_cons, List.length_nil] at g3
    exact h3.1 (List.length_eq_zero_iff.1 (by omega))
  | list d n id len ps num v h1 h2 => subst hv; rcases h2 with ⟨_, h⟩ | ⟨_, h⟩ <;> cases h
  | listIndefinite d n id ps num v h1 h2 => subst hv; rcases h2 with ⟨_, h⟩ | ⟨_, h⟩ <;> cases h
  | _ => cases hv

/-- C124 as stated is false. -/
theorem C124_full_counterexample : ¬ C124Statement := fun H => by
  obtain ⟨_, ⟨h1, o, h2, _, h3⟩, h4⟩ := C124_enumerated_counterexample Tests.D0
  obtain ⟨N, d, n, h5⟩ := H Tests.D0 1 1 1 _ _ [] _ o h1 (by decide) (by rw [List.append_nil]; exact h2) h3 (by decide)
  exact h4 _ _ _ _ _ h5

end Verif
