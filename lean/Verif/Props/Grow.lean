import Verif.Props.Linear
import Verif.Props.CostWrite
import Verif.Props.Times
/-!
# Property C136: size of a parsed object that is written again
-/
namespace Verif
open Outcome Spec

/-- Every object of the tree has a definite length, and none is end-of-contents or a time. -/
def Spec.Steady (o : BerObject) : Prop :=
  ∀ o', Node o' o → (∃ n, o'.header.length = .definite n) ∧ o'.content ≠ .endOfContent ∧
    (∀ t, o'.content ≠ .utcTime t) ∧ ∀ t, o'.content ≠ .generalizedTime t

/-- Times that are read are displayed with at most `K` octets more than were read. -/
def Spec.Longer (D : Deps) (K : Nat) : Prop :=
  ∀ k c t, D.utcTime k c = .ok t ∨ D.generalizedTime k c = .ok t → (D.display t).length ≤ c.length + K

theorem encodeLength_mono {n m : Nat} (h : n ≤ m) (hm : m < 256 ^ 8) :
    (encodeLength (.definite n)).length ≤ (encodeLength (.definite m)).length := by
  rw [encodeLength_definite, encodeLength_definite]
  by_cases h1 : n ≤ 0x7f
  · rw [if_pos h1]
    split <;> simp
  · rw [if_neg h1, if_neg (by omega)]
    simp only [List.length_cons, Nat.add_le_add_iff_right]
    refine Nat.le_of_not_lt fun hlt => ?_
    have h2 := (skipZeroes_length_lt (toBeBytes 8 n) _).1 hlt
    have h3 := skipZeroes_length_lt (toBeBytes 8 m) (skipZeroes (toBeBytes 8 m)).length
    rw [base256_toBeBytes, Nat.mod_eq_of_lt (by omega)] at h2
    rw [base256_toBeBytes, Nat.mod_eq_of_lt hm] at h3
    have := h3.2 (by omega)
    omega

theorem encodeObject_ok {D : Deps} {h : Header} {x : Content} {b : Bytes}
    (e : encodeObject D (.mk h x) = .ok b) : ∃ v, encodeContent D x = .ok v ∧
      b.length = 1 + (encodeLength (.definite v.length)).length + v.length := by
  rw [encodeObject] at e
  cases hv : encodeContent D x with
  | ok v =>
    refine ⟨v, rfl, ?_⟩
    rw [hv, ok_bind, encodeHeader] at e
    split at e
    · cases e
    · simp only [ok_bind, Outcome.ok.injEq] at e
      rw [← e]
      simp
      omega
  | err e' => exact e'.elim
  | panic => rw [hv] at e; cases e
  | diverge => rw [hv] at e; cases e

theorem encodeList_cons {D : Deps} {o : BerObject} {os : List BerObject} {v : Bytes}
    (e : encodeList D (o :: os) = .ok v) : ∃ a b, encodeObject D o = .ok a ∧ encodeList D os = .ok b ∧
      v = a ++ b := by
  rw [encodeList] at e
  cases ha : encodeObject D o with
  | ok a =>
    rw [ha, ok_bind] at e
    cases hb : encodeList D os with
    | ok b =>
      rw [hb, ok_bind, Outcome.ok.injEq] at e
      exact ⟨a, b, rfl, rfl, e.symm⟩
    | err e' => exact e'.elim
    | panic => rw [hb] at e; cases e
    | diverge => rw [hb] at e; cases e
  | err e' => exact e'.elim
  | panic => rw [ha] at e; cases e
  | diverge => rw [ha] at e; cases e

theorem enum_size {c : Bytes} (h : base256 c < 2 ^ 32) :
    (skipZeroes (toBeBytes 8 (base256 c))).length ≤ c.length := by
  have := ((minOctets_iff (n := base256 c) (v := skipZeroes (toBeBytes 8 (base256 c)))
    (Nat.lt_of_lt_of_le h (by decide))).2 rfl).2 c rfl
  exact this

/-- Contents of a leaf that is written again. -/
theorem leaf_grow {D : Deps} {K : Nat} {h : Header} {c v : Bytes} {x : Content} (H : Leaf D h c x)
    (e : encodeContent D x = .ok v) :
    (x ≠ .endOfContent → (∀ t, x ≠ .utcTime t) → (∀ t, x ≠ .generalizedTime t) → v.length ≤ c.length) ∧
    (1 ≤ K → Longer D K → v.length ≤ c.length + K) := by
  cases x <;> simp only [Leaf] at H <;> simp only [encodeContent, Outcome.ok.injEq] at e
  case endOfContent =>
    subst e
    exact ⟨fun h => absurd rfl h, fun h _ => by simp; omega⟩
  case utcTime t =>
    subst e
    exact ⟨fun _ h => absurd rfl (h t), fun _ h => h _ _ _ (.inl H.2.2)⟩
  case generalizedTime t =>
    subst e
    exact ⟨fun _ _ h => absurd rfl (h t), fun _ h => h _ _ _ (.inr H.2.2)⟩
  case enum n =>
    subst e
    obtain ⟨-, -, -, h4, h5⟩ := H
    subst h4
    have := enum_size h5
    exact ⟨fun _ _ _ => this, fun _ _ => by omega⟩
  all_goals
    have hle : v.length ≤ c.length := by
      subst e
      first
        | (obtain ⟨-, -, -, b, rfl, -⟩ := H; simp)
        | (rw [H.2.2.2]; simp)
        | (rw [H.2.2]; exact Nat.le_refl _)
        | (rw [H.2.2.2]; exact Nat.le_refl _)
        | (rw [H.2.2.2.1]; exact Nat.le_refl _)
        | (rw [H.1]; exact Nat.le_refl _)
        | simp
    exact ⟨fun _ _ _ => hle, fun _ _ => by omega⟩

theorem identOctets_pos {id : Bytes} {c : Class} {b : Bool} {n : Nat} (H : IdentOctets id c b n) :
    1 ≤ id.length := by
  cases H <;> simp

/-- An element whose contents do not grow does not grow. -/
theorem framed_grow {D : Deps} {m n : Nat} {e c b : Bytes} {h : Header} {x : Content}
    (H : Framed m e h c) (hn : h.length = .definite n)
    (hc : ∀ v, encodeContent D x = .ok v → v.length ≤ c.length)
    (hb : encodeObject D (.mk h x) = .ok b) : b.length ≤ e.length := by
  obtain ⟨v, hv, hlen⟩ := encodeObject_ok hb
  have hvc := hc v hv
  cases H with
  | definite hb c h hH hl =>
    obtain ⟨id, len, num, rfl, hid, hlo, -, -, -⟩ := hH.octets
    rw [hl] at hlo
    have h64 : c.length < 256 ^ 8 := Nat.lt_of_lt_of_eq (hH.length_lt _ hl) (by decide)
    have h1 := encodeLength_mono hvc h64
    have h2 := ((minLen_iff h64).2 rfl).2 len hlo
    have h3 := identOctets_pos hid
    simp only [List.length_append]
    omega
  | indefinite m hb es t h _ _ hl _ _ => rw [hn] at hl; cases hl

theorem denotes_grow {D : Deps} {k : Nat} {h : Header} {c : Bytes} {x : Content}
    (H : Denotes D k h c x) : ∀ (h' : Header) (v : Bytes), Steady (.mk h' x) →
      encodeContent D x = .ok v → v.length ≤ c.length := by
  have list : ∀ (items : List Item), (∀ it ∈ items, Framed 50 it.bytes it.header it.body) →
      (∀ it ∈ items, ∀ (h' : Header) (v : Bytes), Steady (.mk h' it.value) →
        encodeContent D it.value = .ok v → v.length ≤ it.body.length) →
      (∀ it ∈ items, Steady (.mk it.header it.value)) → ∀ v,
      encodeList D (items.map fun it => .mk it.header it.value) = .ok v →
        v.length ≤ (items.flatMap Item.bytes).length := by
    intro items
    induction items with
    | nil =>
      intro _ _ _ v hv
      rw [List.map_nil, encodeList, Outcome.ok.injEq] at hv
      simp [← hv]
    | cons it items ih =>
      intro hF hI hS v hv
      rw [List.map_cons] at hv
      obtain ⟨a, b, h1, h2, rfl⟩ := encodeList_cons hv
      have h3 := ih (fun x hx => hF x (List.mem_cons_of_mem _ hx))
        (fun x hx => hI x (List.mem_cons_of_mem _ hx)) (fun x hx => hS x (List.mem_cons_of_mem _ hx)) b h2
      obtain ⟨n, hn⟩ := (hS it List.mem_cons_self _ .self).1
      have h4 := framed_grow (hF it List.mem_cons_self) hn
        (fun v hv => hI it List.mem_cons_self _ v (hS it List.mem_cons_self) hv) h1
      simp only [List.flatMap_cons, List.length_append]
      omega
  induction H with
  | leaf _ h c x hL =>
    intro h' v hS hv
    obtain ⟨-, h1, h2, h3⟩ := hS _ .self
    exact (leaf_grow (K := 0) hL hv).1 h1 h2 h3
  | sequence k h items _ _ _ hF _ ih =>
    intro h' v hS hv
    rw [encodeContent] at hv
    exact list items hF ih (fun it hit o' ho' => hS o' (.seq _ _ _ (List.mem_map.2 ⟨it, hit, rfl⟩) ho')) v hv
  | set k h items _ _ _ hF _ ih =>
    intro h' v hS hv
    rw [encodeContent] at hv
    exact list items hF ih (fun it hit o' ho' => hS o' (.set _ _ _ (List.mem_map.2 ⟨it, hit, rfl⟩) ho')) v hv

/-- C136: a parsed object whose lengths are all definite, without end-of-contents and times, is written
again with at most as many octets as were read. -/
theorem C136_not_longer (D : Deps) (i rem e : Bytes) (o : BerObject) (hr : Returned D i rem o)
    (hS : Steady o) (he : toVec D o = .ok e) : e.length + rem.length ≤ i.length := by
  obtain ⟨e', c, rfl, hF, hc⟩ := returned_root hr
  obtain ⟨n, hn⟩ := (hS _ .self).1
  cases o with
  | mk h x =>
    simp only [BerObject.header, BerObject.content] at hF hc hn
    have h1 := framed_grow hF hn (fun v hv => ?_) he
    · simp only [List.length_append]; omega
    · rcases hc with hc | ⟨hd, k, -, -, -, hD⟩
      · rw [hc, encodeContent, Outcome.ok.injEq] at hv
        simp [← hv]
      · exact denotes_grow hD _ v hS hv

theorem steady_example : Steady (.mk ⟨.universal, true, 16, .definite 5, some [0x30]⟩
    (.sequence [.mk ⟨.universal, false, 2, .definite 1, some [2]⟩ (.integer [5])])) := by
  intro o' h
  cases h with
  | self => exact ⟨⟨_, rfl⟩, by simp [BerObject.content]⟩
  | seq _ _ o hm h =>
    rw [List.mem_singleton] at hm
    subst hm
    cases h
    exact ⟨⟨_, rfl⟩, by simp [BerObject.content]⟩

/-- A SEQUENCE with the length in the long form, `30 84 00 00 00 05`, of an INTEGER with a length in the
long form: eleven octets are read, five are written. -/
example := C136_not_longer Tests.D0 [0x30, 0x84, 0, 0, 0, 5, 0x02, 0x82, 0, 1, 5, 9] [9] [0x30, 3, 0x02, 1, 5] _
  (.inl ⟨50, rfl⟩) steady_example (by decide +kernel)

/-! ## All parsed objects -/

theorem encodeLength_short {n j : Nat} (h : n < 128 ∨ (1 ≤ j ∧ n < 256 ^ j) ∨ 8 ≤ j) :
    (encodeLength (.definite n)).length ≤ j + 1 := by
  by_cases h7 : n < 128
  · rw [encodeLength_definite, if_pos (by omega)]
    simp
  · rcases h with h | ⟨h1, h⟩ | h
    · omega
    · rw [encodeLength_definite, if_neg (by omega), List.length_cons, Nat.add_le_add_iff_right]
      refine Nat.le_of_not_lt fun hlt => ?_
      have h2 := (skipZeroes_length_lt (toBeBytes 8 n) _).1 hlt
      rw [base256_toBeBytes] at h2
      have := Nat.mod_le n (256 ^ 8)
      omega
    · have := (encodeLength_size n).2
      omega

theorem denotes_bound {D : Deps} {K j N : Nat} (hK : 1 ≤ K) (hd : Longer D K)
    (hj : ∀ n, n ≤ N → (encodeLength (.definite n)).length ≤ j + 1)
    {k : Nat} {h : Header} {c : Bytes} {x : Content} (H : Denotes D k h c x) : ∀ (d : Nat) (v : Bytes),
      encodeContent D x = .ok v → v.length ≤ N → v.length ≤ c.length + (j + K) * (preorderC x d).length + K := by
  have list : ∀ (items : List Item), (∀ it ∈ items, Framed 50 it.bytes it.header it.body) →
      (∀ it ∈ items, ∀ (d : Nat) (v : Bytes), encodeContent D it.value = .ok v → v.length ≤ N →
        v.length ≤ it.body.length + (j + K) * (preorderC it.value d).length + K) → ∀ (d : Nat) (v : Bytes),
      encodeList D (items.map fun it => .mk it.header it.value) = .ok v → v.length ≤ N →
        v.length ≤ (items.flatMap Item.bytes).length +
          (j + K) * (preorderL (items.map fun it => .mk it.header it.value) d).length := by
    intro items
    induction items with
    | nil =>
      intro _ _ d v hv _
      rw [List.map_nil, encodeList, Outcome.ok.injEq] at hv
      simp [← hv]
    | cons it items ih =>
      intro hF hI d v hv hN
      rw [List.map_cons] at hv
      obtain ⟨a, b, h1, h2, rfl⟩ := encodeList_cons hv
      rw [List.length_append] at hN
      have h3 := ih (fun x hx => hF x (List.mem_cons_of_mem _ hx))
        (fun x hx => hI x (List.mem_cons_of_mem _ hx)) d b h2 (by omega)
      obtain ⟨w, hw, hlen⟩ := encodeObject_ok h1
      have h4 := hI it List.mem_cons_self d w hw (by omega)
      have h5 := framed_length (hF it List.mem_cons_self)
      have h6 := hj w.length (by omega)
      rw [List.map_cons, preorderL, preorder]
      simp only [List.flatMap_cons, List.length_append, List.length_cons, Nat.mul_add, Nat.mul_one]
      omega
  induction H with
  | leaf _ h c x hL =>
    intro d v hv _
    have := (leaf_grow hL hv).2 hK hd
    omega
  | sequence k h items _ _ _ hF _ ih =>
    intro d v hv hN
    rw [encodeContent] at hv
    have := list items hF ih (d + 1) v hv hN
    rw [preorderC]
    omega
  | set k h items _ _ _ hF _ ih =>
    intro d v hv hN
    rw [encodeContent] at hv
    have := list items hF ih (d + 1) v hv hN
    rw [preorderC]
    omega

/-- C136: if times are displayed with at most `K` octets more than were read, any parsed object is written again with
at most `j + K` octets more for each object of the tree than were read, where `j` is 0 for less than 128 octets written,
1 for less than 256, 2 for less than 2^16, and so on, and never more than 8. -/
theorem C136_bound (D : Deps) (K j : Nat) (hK : 1 ≤ K) (hd : Longer D K)
    (i rem e : Bytes) (o : BerObject) (hr : Returned D i rem o) (he : toVec D o = .ok e)
    (hj : e.length < 128 ∨ (1 ≤ j ∧ e.length < 256 ^ j) ∨ 8 ≤ j) :
    e.length + rem.length ≤ i.length + (j + K) * (preorder o 0).length := by
  obtain ⟨e', c, rfl, hF, hc⟩ := returned_root hr
  have hj' : ∀ n, n ≤ e.length → (encodeLength (.definite n)).length ≤ j + 1 := fun n hn =>
    encodeLength_short (by omega)
  cases o with
  | mk h x =>
    simp only [BerObject.header, BerObject.content] at hF hc
    obtain ⟨v, hv, hlen⟩ := encodeObject_ok he
    have h1 : v.length ≤ c.length + (j + K) * (preorderC x 0).length + K := by
      rcases hc with hc | ⟨hd', k, -, -, -, hD⟩
      · rw [hc, encodeContent, Outcome.ok.injEq] at hv
        rw [← hv]
        simp only
        omega
      · exact denotes_bound hK hd hj' hD 0 v hv (by omega)
    have h2 := framed_length hF
    have h3 := hj' v.length (by omega)
    rw [preorder]
    simp only [List.length_append, List.length_cons, Nat.mul_add, Nat.mul_one]
    omega

/-- C136: so the size grows at most by a constant factor. -/
theorem C136_factor (D : Deps) (K : Nat) (hK : 1 ≤ K) (hd : Longer D K)
    (i rem e : Bytes) (o : BerObject) (hr : Returned D i rem o) (he : toVec D o = .ok e) :
    2 * e.length ≤ (10 + K) * (i.length - rem.length) := by
  have h1 := C136_bound D K 8 hK hd i rem e o hr he (.inr (.inr (Nat.le_refl _)))
  have h2 := C76_count D i rem o 0 hr
  have h3 : (8 + K) * (2 * (preorder o 0).length) ≤ (8 + K) * (i.length - rem.length) :=
    Nat.mul_le_mul_left _ (by omega)
  have h4 : (8 + K) * (2 * (preorder o 0).length) = 2 * ((8 + K) * (preorder o 0).length) := by
    rw [Nat.mul_left_comm]
  have h5 : (10 + K) * (i.length - rem.length) = 2 * (i.length - rem.length) + (8 + K) * (i.length - rem.length) := by
    rw [← Nat.add_mul]; congr 1; omega
  omega

theorem longer_none : Longer Tests.D0 1 := fun _ _ _ _ => Nat.zero_le _

/-- End-of-contents: one octet more for one object. -/
example := C136_bound Tests.D0 1 0 (by decide) longer_none [0, 0, 7] [7] [0, 1, 0] _ (.inl ⟨50, rfl⟩) rfl
  (.inl (by decide))
example := C136_factor Tests.D0 1 (by decide) longer_none [0, 0, 7] [7] [0, 1, 0] _ (.inl ⟨50, rfl⟩) rfl

/-! ## Times -/

/-- Octets of the milliseconds in a displayed time. -/
def milliSize : Option Nat → Nat
  | none => 0
  | some v => 1 + (decimal v).length

open Calendar in
theorem utcFromBytes_size {b : Bytes} {c : Clock} (h : utcFromBytes b = some c) : 11 ≤ b.length := by
  unfold utcFromBytes at h
  split at h
  next rest =>
    cases rest with
    | nil =>
      simp only [Option.bind_eq_bind, Option.bind_eq_some_iff] at h
      obtain ⟨_, _, _, _, _, _, _, _, _, _, h⟩ := h
      split at h
      · simp [seconds, zoneOf] at h
      · cases h
    | cons a r => simp
  next => cases h

open Calendar in
theorem fracDigits_size : ∀ (n : Nat) (r : Bytes), (fracDigits n r).1.length ≤ n ∧
    (fracDigits n r).1.length ≤ r.length ∧ ∀ d ∈ (fracDigits n r).1, d < 10
  | 0, r => by simp [fracDigits]
  | n + 1, [] => by simp [fracDigits]
  | n + 1, b :: r => by
    have ih := fracDigits_size n r
    rw [fracDigits]
    split
    · refine ⟨by simp; omega, by simp; omega, ?_⟩
      intro d hd
      rcases List.mem_cons.1 hd with rfl | hd
      · omega
      · exact ih.2.2 d hd
    · simp

open Calendar in
theorem milliOf_lt (ds : List Nat) (h4 : ds.length ≤ 4) (h : ∀ d ∈ ds, d < 10) :
    milliOf ds < 10000 ∧ (ds.length ≤ 3 → milliOf ds < 1000) := by
  rcases ds with _ | ⟨a, _ | ⟨b, _ | ⟨c, _ | ⟨d, _ | ⟨e, r⟩⟩⟩⟩⟩ <;> simp at h h4 <;>
    simp [milliOf] <;> omega

open Calendar in
theorem decimal_size {n : Nat} (h : n < 10000) : (decimal n).length ≤ 4 ∧ (n < 1000 → (decimal n).length ≤ 3) := by
  have h3 : ∀ m, m < 1000 → (decimal m).length ≤ 3 := by
    intro m hm
    rw [decimal_three hm]
    unfold upToThree two
    split
    · simp
    · split <;> simp
  refine ⟨?_, h3 n⟩
  by_cases h1 : n < 1000
  · have := h3 n h1; omega
  · rw [decimal_step (by omega), List.length_append]
    have := h3 (n / 10) (by omega)
    simp only [List.length_cons, List.length_nil]
    omega

open Calendar in
theorem displayClock_size {c : Clock} (h : c.InRange) : (displayClock c).length =
    15 + milliSize c.milli := by
  unfold displayClock
  rw [padded_four h.year, padded_two h.month, padded_two h.day, padded_two h.hour, padded_two h.minute,
    padded_two h.second]
  have h1 : (lit ".").length = 1 := by decide
  have h2 : (lit "Z").length = 1 := by decide
  cases c.milli <;> simp [two, milliSize, h1, h2] <;> omega

open Calendar in
theorem fracZone_size {r : Bytes} {m : Option Nat} {w : TimeZone} (h : fracZone r = some (m, w)) :
    milliSize m ≤ r.length + 2 := by
  unfold fracZone at h
  split at h
  · cases h; simp [milliSize]
  · next b rest =>
    split at h
    · have hf := fracDigits_size 4 rest
      have hm := milliOf_lt _ hf.1 hf.2.2
      have hs := decimal_size hm.1
      have hne : (fracDigits 4 rest).1 ≠ [] := by
        intro he
        rw [if_pos he] at h
        cases h
      have hpos := List.length_pos_iff.2 hne
      have key : 1 + (decimal (milliOf (fracDigits 4 rest).1)).length ≤ (b :: rest).length + 2 := by
        rw [List.length_cons]
        by_cases h3 : (fracDigits 4 rest).1.length ≤ 3
        · have := hs.2 (hm.2 h3); omega
        · omega
      simp only [if_neg hne] at h
      split at h
      · cases h; exact key
      · split at h
        · cases h
        · simp only [Option.map_eq_some_iff] at h
          obtain ⟨_, -, h⟩ := h
          cases h
          exact key
    · simp only [Option.map_eq_some_iff] at h
      obtain ⟨_, -, h⟩ := h
      cases h
      simp [milliSize]

open Calendar in
theorem generalizedFromBytes_size {b : Bytes} {c : Clock} (h : generalizedFromBytes b = some c) :
    13 ≤ b.length ∧ milliSize c.milli + 12 ≤ b.length + 1 := by
  unfold generalizedFromBytes at h
  split at h
  next rest =>
    simp only [Option.bind_eq_bind, Option.bind_eq_some_iff] at h
    obtain ⟨y, hy, y', hy', m, hm, d, hd, hh, hhh, n, hn, h⟩ := h
    split at h
    next => simp at h
    next hne =>
    have hpos := List.length_pos_iff.2 hne
    split at h
    next hv =>
      simp only [Option.pure_def, Option.bind_eq_some_iff, Option.some.injEq] at h
      obtain ⟨⟨mi, w⟩, hw, rfl⟩ := h
      have hs := fracZone_size hw
      simp only [List.length_cons]
      refine ⟨by omega, ?_⟩
      rcases rest with _ | ⟨a, _ | ⟨a', rest⟩⟩
      · simp at hne
      · cases mi with
        | none => simp [milliSize]
        | some v =>
          simp only [seconds, fracZone, fracDigits] at hw
          split at hw <;> simp at hw
      · simp only [seconds, List.length_cons] at hs ⊢
        omega
    next => simp at h
  next => simp at h

/-- C136: a library like asn1-rs displays times with at most four octets more than were read. -/
theorem C136_times (charset : StrKind → Bytes → Bool) : Longer (Calendar.deps charset) 4 := by
  intro k b t h
  rcases h with h | h
  · obtain ⟨c, hc, rfl⟩ := Calendar.fromAny_ok h
    obtain ⟨h1, -, h2, -⟩ := Calendar.utcFromBytes_some hc
    have h3 := utcFromBytes_size hc
    simp only [Calendar.deps, Calendar.clockOf_date, displayClock_size h1, h2, milliSize]
    omega
  · obtain ⟨c, hc, rfl⟩ := Calendar.fromAny_ok h
    have h1 := (Calendar.generalizedFromBytes_some hc).1
    have h2 := generalizedFromBytes_size hc
    simp only [Calendar.deps, Calendar.clockOf_date, displayClock_size h1]
    omega

/-- C136: so with a library like asn1-rs less than 128 octets grow by four octets for each object at most, and
anything grows by a factor of seven at most. -/
theorem C136_small (charset : StrKind → Bytes → Bool) (i rem e : Bytes) (o : BerObject)
    (hr : Returned (Calendar.deps charset) i rem o) (he : toVec (Calendar.deps charset) o = .ok e) :
    (e.length < 128 → e.length + rem.length ≤ i.length + 4 * (preorder o 0).length) ∧
    e.length ≤ 7 * (i.length - rem.length) := by
  refine ⟨fun h => ?_, ?_⟩
  · have := C136_bound _ 4 0 (by decide) (C136_times charset) i rem e o hr he (.inl h)
    omega
  · have := C136_factor _ 4 (by decide) (C136_times charset) i rem e o hr he
    omega

/-- The bound for one time is reached: `17 0b` and eleven octets are written as `17 0f` and fifteen. -/
example := C136_small (fun _ _ => true) (short 0x17 (lit "9205212342Z")) [] (short 0x17 (lit "00920521234200Z")) Tests.utc
  (.inl ⟨50, by rfl⟩) (by decide +kernel)

/-! ## Each condition is needed -/

/-- C136: end-of-contents grows from `00 00` to `00 01 00`. -/
theorem C136_eoc_grows (D : Deps) : ∃ o, parseBer D [0, 0] = .ok ([], o) ∧ toVec D o = .ok [0, 1, 0] :=
  ⟨_, rfl, rfl⟩

/-- C136: a time grows from eleven octets to fifteen, with asn1-rs. -/
theorem C136_time_grows : ∃ o e, parseBer Tests.DC (short 0x17 (lit "9205212342Z")) = .ok ([], o) ∧
    toVec Tests.DC o = .ok e ∧ (short 0x17 (lit "9205212342Z")).length + 4 = e.length :=
  ⟨Tests.utc, _, by rfl, (by decide +kernel : toVec Tests.DC Tests.utc = .ok (short 0x17 (lit "00920521234200Z"))), rfl⟩

/-- C136: an indefinite length is written as a definite one, which takes one octet more when the
contents have 2^16 octets. -/
theorem C136_indefinite_grows (D : Deps) : ∃ i o e, parseBer D i = .ok ([], o) ∧ toVec D o = .ok e ∧
    e.length = i.length + 1 := by
  let z : Bytes := List.replicate 65532 0
  have hz : z.length = 65532 := List.length_replicate
  have H : BerHeader [0x24, 0x80] ⟨.universal, true, 4, .indefinite, some [0x24]⟩ := berHeader_read rfl
  have H2 : BerHeader [0x04, 0x82, 0xff, 0xfc] ⟨.universal, false, 4, .definite 65532, some [0x04]⟩ :=
    berHeader_read rfl
  have hE : Element LooseEoc LooseEoc 49 ([0x04, 0x82, 0xff, 0xfc] ++ z) := by
    refine .definite 48 65532 _ _ _ H2 rfl hz ?_
    rintro ⟨h, h1, h2, h3⟩
    have := (berHeader_unique (x := []) (x' := z) h1 H2 (by simp)).2
    rw [this] at h3
    cases h3
  have hF := C61_framed_strict 48 [0x24, 0x80] [[0x04, 0x82, 0xff, 0xfc] ++ z] _ H rfl (by
    intro e he
    rw [List.mem_singleton] at he
    rw [he]
    exact hE)
  have hD : Denotes D 50 ⟨.universal, true, 4, .indefinite, some [0x24]⟩ [[0x04, 0x82, 0xff, 0xfc] ++ z].flatten
      (.octetString [[0x04, 0x82, 0xff, 0xfc] ++ z].flatten) := .leaf 49 _ _ _ ⟨rfl, rfl, rfl⟩
  refine ⟨_, .mk _ (.octetString [[0x04, 0x82, 0xff, 0xfc] ++ z].flatten), _,
    (C61_parse_ber D _ [] _).2 ⟨_, _, (List.append_nil _).symm, hF, hD⟩, rfl, ?_⟩
  have h1 : ([[0x04, 0x82, 0xff, 0xfc] ++ z].flatten).length = 65536 := by
    simp [hz]
  have h2 : (encodeLength (.definite 65536)).length = 4 := by decide +kernel
  simp only [List.length_append, List.length_cons, h1, h2, List.length_nil]

end Verif
