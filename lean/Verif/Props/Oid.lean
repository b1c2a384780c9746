import Verif.Lemmas.Oid
/-!
# OID macro: C57 and C58
-/
namespace Verif
open Outcome Spec OidMacro

/-! ## C57 -/

/-- C57: a relative OID with any components is encoded (no panic) as the series of their
subidentifiers, which decodes to these components and no others. -/
theorem C57_relative (ns : List Nat) :
    ∃ bs, encodeComponents ns true = .ok bs ∧ SubIds ns bs ∧ ∀ ns', SubIds ns' bs → ns' = ns := by
  obtain ⟨bs, h1, h2⟩ := encodeRest_ok ns []
  exact ⟨bs, by simpa [encodeComponents] using h1, h2, fun ns' h => subIds_unique h h2⟩

/-- C57: whenever the first two arcs are accepted, one octet for them is followed by the series of
subidentifiers of the other components, of any size and number. -/
theorem C57_absolute (a b : Nat) (ns : List Nat) (e : Bytes)
    (h : encodeComponents (a :: b :: ns) false = .ok e) :
    ∃ bs, e = UInt8.ofNat (a * 40 + b) :: bs ∧ SubIds ns bs ∧ ∀ ns', SubIds ns' bs → ns' = ns := by
  obtain ⟨bs, h1, h2⟩ := encodeRest_ok ns [UInt8.ofNat (a * 40 + b)]
  refine ⟨bs, ?_, h2, fun ns' h => subIds_unique h h2⟩
  simp only [encodeComponents, Bool.false_eq_true, if_false, h1] at h
  split at h
  · cases h
  · split at h
    · cases h
    · exact (ok.inj h).symm

/-- C57: acceptance does not depend on the other components. -/
theorem C57_absolute_accepted (a b : Nat) (ns : List Nat) (e : Bytes)
    (h : encodeComponents [a, b] false = .ok e) :
    ∃ e', encodeComponents (a :: b :: ns) false = .ok e' := by
  obtain ⟨bs, h1, -⟩ := encodeRest_ok ns [UInt8.ofNat (a * 40 + b)]
  simp only [encodeComponents, Bool.false_eq_true, if_false] at h ⊢
  split at h
  · cases h
  · rename_i h2
    rw [if_neg h2]
    split at h
    · cases h
    · rename_i h3
      rw [if_neg h3]
      exact ⟨_, h1⟩

example := C57_absolute_accepted 1 2 [840, 113549] [0x2a] (by decide +kernel)

theorem subId_bounds {n : Nat} {b : Bytes} (h : SubId n b) :
    n < 128 ^ b.length ∧ (1 < b.length → 128 ^ (b.length - 1) ≤ n) := by
  obtain ⟨ms, l, rfl, h1, h2, rfl, h4⟩ := h
  refine ⟨base128_lt _, fun hl => ?_⟩
  cases ms with
  | nil => simp at hl
  | cons a ms =>
    have ha := h1 a (by simp)
    have ha' : a.toNat ≠ 128 := by
      intro h
      apply h4
      simp only [List.cons_append, List.head?_cons, Option.some.injEq]
      exact UInt8.toNat_inj.1 h
    have := a.toNat_lt
    have hm : 1 ≤ a.toNat % 128 := by omega
    simp only [List.cons_append, base128, List.length_cons, Nat.add_sub_cancel]
    have := Nat.mul_le_mul_right (128 ^ (ms ++ [l]).length) hm
    omega

theorem base128_digits {a b : Bytes} (hl : a.length = b.length) (h : base128 a = base128 b) :
    a.map (fun x => x.toNat % 128) = b.map (fun x => x.toNat % 128) := by
  induction a generalizing b with
  | nil => cases b <;> simp at hl ⊢
  | cons x a ih =>
    cases b with
    | nil => simp at hl
    | cons y b =>
      simp only [List.length_cons, Nat.add_right_cancel_iff] at hl
      simp only [base128, ← hl] at h
      have ha := base128_lt a
      have hb := base128_lt b
      rw [← hl] at hb
      have hp : 0 < 128 ^ a.length := Nat.pow_pos (by decide)
      have h1 : x.toNat % 128 = y.toNat % 128 := by
        have e1 := congrArg (· / 128 ^ a.length) h
        simp only [Nat.mul_comm _ (128 ^ a.length)] at e1
        rwa [Nat.mul_add_div hp, Nat.mul_add_div hp, Nat.div_eq_of_lt ha, Nat.div_eq_of_lt hb,
          Nat.add_zero, Nat.add_zero] at e1
      rw [h1] at h
      rw [List.map_cons, List.map_cons, h1, ih hl (by omega)]

theorem subId_inj {n : Nat} {b b' : Bytes} (h : SubId n b) (h' : SubId n b') : b = b' := by
  have hb := subId_bounds h
  have hb' := subId_bounds h'
  have hne := List.length_pos_iff.2 (subId_ne_nil h)
  have hne' := List.length_pos_iff.2 (subId_ne_nil h')
  have hlen : b.length = b'.length := by
    rcases Nat.lt_trichotomy b.length b'.length with hlt | heq | hlt
    · have h1 := hb'.2 (by omega)
      have h2 := Nat.lt_of_le_of_lt h1 hb.1
      have := (Nat.pow_lt_pow_iff_right (a := 128) (by decide)).1 h2
      omega
    · exact heq
    · have h1 := hb.2 (by omega)
      have h2 := Nat.lt_of_le_of_lt h1 hb'.1
      have := (Nat.pow_lt_pow_iff_right (a := 128) (by decide)).1 h2
      omega
  obtain ⟨ms, l, rfl, h1, h2, e, -⟩ := h
  obtain ⟨ms', l', rfl, h1', h2', e', -⟩ := h'
  have hd := base128_digits hlen (e.trans e'.symm)
  simp only [List.length_append, List.length_singleton, Nat.add_right_cancel_iff] at hlen
  simp only [List.map_append, List.map_cons, List.map_nil] at hd
  obtain ⟨hd1, hd2⟩ := List.append_inj hd (by simpa using hlen)
  have hl : l = l' := by
    apply UInt8.toNat_inj.1
    simp only [List.cons.injEq, and_true] at hd2
    omega
  have hms : ms = ms' := by
    clear hd hd2 e e' hb hb' hne hne'
    induction ms generalizing ms' with
    | nil => cases ms' <;> simp at hlen ⊢
    | cons a ms ih =>
      cases ms' with
      | nil => simp at hlen
      | cons a' ms' =>
        simp only [List.map_cons, List.cons.injEq] at hd1
        have ha := h1 a (by simp)
        have ha' := h1' a' (by simp)
        have := a.toNat_lt
        have := a'.toNat_lt
        rw [ih (fun m hm => h1 m (by simp [hm])) ms' (fun m hm => h1' m (by simp [hm]))
          (by simpa using hlen) hd1.2, UInt8.toNat_inj.1 (show a.toNat = a'.toNat by omega)]
  rw [hl, hms]

/-- C57: there is only one series of subidentifiers for given components, so the macro's octets are
the X.690 ones. -/
theorem C57_canonical (ns : List Nat) (bs : Bytes) :
    SubIds ns bs ↔ encodeComponents ns true = .ok bs := by
  obtain ⟨bs', h1, h2, -⟩ := C57_relative ns
  rw [h1]
  constructor
  · intro h
    congr 1
    clear h1
    induction h generalizing bs' with
    | nil => cases h2; rfl
    | cons n ns b bs hb hbs ih =>
      cases h2 with
      | cons _ _ b' bs' hb' hbs' => rw [subId_inj hb hb', ih bs' hbs']
  · intro h; rw [← ok.inj h]; exact h2

/-- The octets that the macro makes of components: relative, the series of their subidentifiers; absolute, one octet for
the first two arcs, if there is room for them, and the subidentifiers of the others.  The single component 0 stands for the
octet 0. -/
def Spec.MacroOctets (rel : Bool) (ns : List Nat) (e : Bytes) : Prop :=
  if rel = true then SubIds ns e
  else (ns = [0] ∧ e = [0]) ∨
    ∃ a b rest bs, ns = a :: b :: rest ∧ a ≤ 6 ∧ b < 40 ∧ a * 40 + b < 256 ∧ e = UInt8.ofNat (a * 40 + b) :: bs ∧
      SubIds rest bs

/-- C57: exactly the octets, for every list of components. -/
theorem C57_exact (ns : List Nat) (rel : Bool) (e : Bytes) :
    encodeComponents ns rel = .ok e ↔ MacroOctets rel ns e := by
  cases rel with
  | true => simp only [MacroOctets, if_true]; exact (C57_canonical ns e).symm
  | false =>
    simp only [MacroOctets, Bool.false_eq_true, if_false]
    match ns with
    | [] => simp [encodeComponents]
    | [a] =>
      by_cases ha : a = 0
      · simp [encodeComponents, ha, eq_comm]
      · simp [encodeComponents, ha]
    | a :: b :: rest =>
      constructor
      · intro h
        obtain ⟨bs, h1, h2, -⟩ := C57_absolute a b rest e h
        simp only [encodeComponents, Bool.false_eq_true, if_false] at h
        split at h
        · cases h
        · split at h
          · cases h
          · exact .inr ⟨a, b, rest, bs, rfl, by omega, by omega, by omega, h1, h2⟩
      · rintro (⟨h, -⟩ | ⟨a', b', rest', bs, h, h1, h2, h3, rfl, h5⟩)
        · cases h
        cases h
        obtain ⟨bs', k1, k2⟩ := encodeRest_ok rest [UInt8.ofNat (a * 40 + b)]
        simp only [encodeComponents, Bool.false_eq_true, if_false]
        rw [if_neg (by omega), if_neg (by omega), k1]
        have hu : encodeComponents rest true = .ok bs := (C57_canonical rest bs).1 h5
        rw [(C57_canonical rest bs').1 k2] at hu
        rw [ok.inj hu]; rfl

example : MacroOctets false [0] [0] ∧ ¬ ∃ e, MacroOctets false [1] e := by
  refine ⟨.inl ⟨rfl, rfl⟩, ?_⟩
  rintro ⟨e, ⟨h, -⟩ | ⟨a, b, _, _, h, -⟩⟩ <;> cases h

example : encodeComponents [840, 113549, 0, 2 ^ 64] true =
    .ok [0x86, 0x48, 0x86, 0xf7, 0x0d, 0,
      0x82, 0x80, 0x80, 0x80, 0x80, 0x80, 0x80, 0x80, 0x80, 0] := by decide +kernel

/-! ## C58 -/

/-- Pairs of first arcs allowed by X.660. -/
def Spec.ArcsOk (a b : Nat) : Prop := (a ≤ 1 ∧ b < 40) ∨ a = 2

/-- C58 as claimed: allowed pairs are encoded as the subidentifier of `40 a + b`, other pairs are
rejected. -/
def C58Statement : Prop :=
  ∀ (a b : Nat) (ns : List Nat),
    (ArcsOk a b → ∃ e bs, encodeComponents (a :: b :: ns) false = .ok (e ++ bs) ∧
      SubId (40 * a + b) e) ∧
    (¬ ArcsOk a b → encodeComponents (a :: b :: ns) false = .panic)

/-- C58 is false: the arcs 2.40 are rejected. -/
theorem C58_joint_iso_counterexample : ¬ C58Statement := by
  intro H
  obtain ⟨e, bs, h, -⟩ := (H 2 40 []).1 (.inr rfl)
  cases h

/-- C58 is false: 3.0 is accepted, with the encoding of 2.40. -/
theorem C58_high_arc_counterexample : ¬ C58Statement := by
  intro H
  have h := (H 3 0 []).2 (by unfold ArcsOk; omega)
  have h' : encodeComponents [3, 0] false = .ok [120] := by decide +kernel
  rw [h'] at h
  cases h

/-- C58, which pairs are accepted: first arc below 7, second below 40, and the octet fits. -/
theorem C58_accepted (a b : Nat) (ns : List Nat) :
    (∃ e, encodeComponents (a :: b :: ns) false = .ok e) ↔ a < 7 ∧ b < 40 ∧ a * 40 + b < 256 := by
  obtain ⟨bs, h1, -⟩ := encodeRest_ok ns [UInt8.ofNat (a * 40 + b)]
  simp only [encodeComponents, Bool.false_eq_true, if_false, h1]
  by_cases h2 : 7 ≤ a ∨ 40 ≤ b
  · rw [if_pos h2]
    constructor
    · rintro ⟨_, h⟩; cases h
    · omega
  · rw [if_neg h2]
    by_cases h3 : 256 ≤ a * 40 + b
    · rw [if_pos h3]
      constructor
      · rintro ⟨_, h⟩; cases h
      · omega
    · rw [if_neg h3]
      exact ⟨fun _ => by omega, fun _ => ⟨_, rfl⟩⟩

/-- C58, everything else is rejected, including lists of less than two arcs except `0`. -/
theorem C58_rejected (ns : List Nat) :
    encodeComponents ns false = .panic ↔
      ns = [] ∨ (∃ a, ns = [a] ∧ a ≠ 0) ∨
        ∃ a b rest, ns = a :: b :: rest ∧ ¬ (a < 7 ∧ b < 40 ∧ a * 40 + b < 256) := by
  match ns with
  | [] => simp [encodeComponents]
  | [a] =>
    by_cases h : a = 0 <;> simp [encodeComponents, h]
  | a :: b :: ns =>
    have := C58_accepted a b ns
    simp only [reduceCtorEq, List.cons.injEq, false_or, and_false, false_and, exists_false]
    constructor
    · intro h
      refine ⟨a, b, ns, ⟨rfl, rfl, rfl⟩, fun h' => ?_⟩
      obtain ⟨e, he⟩ := this.2 h'
      rw [he] at h; cases h
    · rintro ⟨a', b', ns', ⟨rfl, rfl, rfl⟩, h⟩
      simp only [encodeComponents, Bool.false_eq_true, if_false]
      by_cases h2 : 7 ≤ a ∨ 40 ≤ b
      · rw [if_pos h2]
      · rw [if_neg h2, if_pos (by omega)]

/-- C58, restricted to second arcs below 40: the X.690 encoding.  Missing: 2.x with x ≥ 40 is
rejected, and 3.x to 6.x are accepted. -/
theorem C58_arcs_partial (a b : Nat) (ns : List Nat) (ha : a ≤ 2) (hb : b < 40) :
    ∃ e bs, encodeComponents (a :: b :: ns) false = .ok (e ++ bs) ∧ SubId (40 * a + b) e ∧
      SubIds ns bs ∧ SubIds ((40 * a + b) :: ns) (e ++ bs) := by
  obtain ⟨e, he⟩ := (C58_accepted a b ns).2 (by omega)
  obtain ⟨bs, rfl, h2, -⟩ := C57_absolute a b ns e he
  have hn : (UInt8.ofNat (a * 40 + b)).toNat = 40 * a + b := by rw [UInt8.toNat_ofNat']; omega
  have hs : SubId (40 * a + b) [UInt8.ofNat (a * 40 + b)] := by
    refine ⟨[], _, rfl, by simp, by omega, ?_, ?_⟩
    · simp only [base128, hn, List.length_nil, Nat.pow_zero]; omega
    · simp only [List.head?_cons, ne_eq, Option.some.injEq]
      intro h
      have : (UInt8.ofNat (a * 40 + b)).toNat = 128 := by rw [h]; rfl
      omega
  exact ⟨[UInt8.ofNat (a * 40 + b)], bs, he, hs, h2, .cons _ _ _ _ hs h2⟩

example := C58_arcs_partial 2 5 [4, 6] (by decide) (by decide)

/-- C58, first arcs 4 to 6: the octets written are not a series of subidentifiers when no component
follows. -/
theorem C58_high_arc_malformed (a b : Nat) (ha : 4 ≤ a) (e : Bytes)
    (h : encodeComponents [a, b] false = .ok e) (ns : List Nat) : ¬ SubIds ns e := by
  obtain ⟨h1, h2, h3⟩ := (C58_accepted a b []).1 ⟨e, h⟩
  have he : e = [UInt8.ofNat (a * 40 + b)] := by
    have h' : encodeComponents [a, b] false = .ok [UInt8.ofNat (a * 40 + b)] := by
      simp only [encodeComponents, Bool.false_eq_true, if_false]
      rw [if_neg (by omega), if_neg (by omega)]; rfl
    exact ok.inj (h.symm.trans h')
  rw [he]
  intro hs
  have hn : (UInt8.ofNat (a * 40 + b)).toNat = a * 40 + b := by rw [UInt8.toNat_ofNat']; omega
  generalize hx : [UInt8.ofNat (a * 40 + b)] = x at hs
  cases hs with
  | nil => cases hx
  | cons n ns b' bs hb hbs =>
    obtain ⟨ms, l, rfl, h4, h5, -, -⟩ := hb
    cases ms with
    | nil =>
      simp only [List.nil_append, List.cons_append, List.cons.injEq] at hx
      rw [← hx.1] at h5; omega
    | cons m ms => simp at hx

example : encodeComponents [1, 2, 840, 113549] false =
    .ok [0x2a, 0x86, 0x48, 0x86, 0xf7, 0x0d] := by decide +kernel

end Verif
