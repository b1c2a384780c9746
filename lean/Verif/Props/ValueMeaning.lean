import Verif.Props.ValueBer
/-!
# Property C123: values and documents

An object has one value; encodings of values are BER documents; BER documents of known types are encodings of values.
-/
namespace Verif
open Outcome Spec

/-! ## Lemmas -/

theorem u8_ofNat_inj {a b : Nat} (h : UInt8.ofNat a = UInt8.ofNat b) : a % 256 = b % 256 := by
  have := congrArg UInt8.toNat h
  simpa using this

theorem utf8Enc_split {a b : Nat} {x y : Bytes} (ha : IsScalar a) (hb : IsScalar b)
    (h : utf8Enc a ++ x = utf8Enc b ++ y) : a = b ∧ x = y := by
  unfold IsScalar at ha hb
  unfold utf8Enc at h
  by_cases a1 : a < 0x80 <;> by_cases a2 : a < 0x800 <;> by_cases a3 : a < 0x10000 <;>
  by_cases b1 : b < 0x80 <;> by_cases b2 : b < 0x800 <;> by_cases b3 : b < 0x10000 <;>
  first
  | omega
  | (simp only [a1, a2, a3, b1, b2, b3, if_true, if_false, List.cons_append, List.nil_append, List.cons.injEq] at h
     first
     | (obtain ⟨h1, h2, h3, h4, h5⟩ := h
        have := u8_ofNat_inj h1; have := u8_ofNat_inj h2; have := u8_ofNat_inj h3; have := u8_ofNat_inj h4
        exact ⟨by omega, h5⟩)
     | (obtain ⟨h1, h2, h3, h4⟩ := h
        have := u8_ofNat_inj h1; have := u8_ofNat_inj h2; have := u8_ofNat_inj h3
        exact ⟨by omega, h4⟩)
     | (obtain ⟨h1, h2, h3⟩ := h
        have := u8_ofNat_inj h1; have := u8_ofNat_inj h2
        exact ⟨by omega, h3⟩)
     | (obtain ⟨h1, h2⟩ := h
        have := u8_ofNat_inj h1
        exact ⟨by omega, h2⟩)
     | (exfalso; have := u8_ofNat_inj h.1; omega))

theorem utf8Enc_ne_nil (c : Nat) : utf8Enc c ≠ [] := by
  unfold utf8Enc
  split
  · simp
  · split
    · simp
    · split <;> simp

theorem utf8_inj : ∀ {a b : List Nat}, (∀ x ∈ a, IsScalar x) → (∀ x ∈ b, IsScalar x) →
    a.flatMap utf8Enc = b.flatMap utf8Enc → a = b
  | [], [], _, _, _ => rfl
  | [], y :: b, _, _, h => by
    rw [List.flatMap_cons] at h
    exact absurd (List.append_eq_nil_iff.1 h.symm).1 (utf8Enc_ne_nil y)
  | x :: a, [], _, _, h => by
    rw [List.flatMap_cons] at h
    exact absurd (List.append_eq_nil_iff.1 h).1 (utf8Enc_ne_nil x)
  | x :: a, y :: b, ha, hb, h => by
    simp only [List.flatMap_cons] at h
    obtain ⟨h1, h2⟩ := utf8Enc_split (ha x (by simp)) (hb y (by simp)) h
    rw [h1, utf8_inj (fun z hz => ha z (by simp [hz])) (fun z hz => hb z (by simp [hz])) h2]

theorem arcsCode_unique {a b : List Nat} {c : Bytes} (h : ArcsCode a c) (h' : ArcsCode b c) : a = b := by
  obtain ⟨x, y, r, rfl, h1, h2, h3⟩ := h
  obtain ⟨x', y', r', rfl, h1', h2', h3'⟩ := h'
  have := subIds_unique h3 h3'
  simp only [List.cons.injEq] at this
  obtain ⟨e, rfl⟩ := this
  have : x = x' := by omega
  subst this
  obtain rfl : y = y' := by omega
  rfl

theorem strTag_inj {k k' : StrKind} (h : strTag k = strTag k') : k = k' := by
  cases k <;> cases k' <;> first | rfl | exact absurd h (by decide)

theorem strTag_range (k : StrKind) : strTag k ∈ [7, 12, 18, 19, 20, 21, 22, 25, 26, 27] := by cases k <;> decide

theorem bitAnswers_unique {o : BerObject} {a b : List Bool} (h : BitAnswers o a) (h' : BitAnswers o b) : a = b := by
  obtain ⟨u, s, h1, _, _, h2, _, h3, _⟩ := h
  obtain ⟨u', s', h1', _, _, h2', _, h3', _⟩ := h'
  rw [h1] at h1'
  cases h1'
  refine List.ext_getElem (by omega) fun i hi hi' => ?_
  have := (h3 i hi).symm.trans (h3' i hi')
  exact Outcome.ok.inj this

/-- Answers with the tag of the value determine the value. -/
theorem answers_unique {o : BerObject} {v w : Value} (hc : v.cls = w.cls) (hn : v.num = w.num) (hv : Answers o v)
    (hw : Answers o w) : v = w := by
  have kill : ∀ {k : StrKind} {n : Nat}, strTag k = n → n ∉ [7, 12, 18, 19, 20, 21, 22, 25, 26, 27] → False :=
    fun h h' => h' (h ▸ strTag_range _)
  cases v <;> cases w <;>
  first
  | exact hv.elim
  | exact hw.elim
  | (exfalso; revert hn; simp [Value.num]; done)
  | (refine (kill hn ?_).elim; simp [Value.num]; done)
  | (refine (kill hn.symm ?_).elim; simp [Value.num]; done)
  | exact absurd hc hv.1
  | exact absurd hc.symm hw.1
  | rfl
  | skip
  case boolean.boolean => exact congrArg _ (Outcome.ok.inj (hv.symm.trans hw))
  case integer.integer => exact congrArg _ (Outcome.ok.inj (hv.1.symm.trans hw.1))
  case bits.bits => exact congrArg _ (bitAnswers_unique hv hw)
  case octets.octets => exact congrArg _ (Outcome.ok.inj (hv.symm.trans hw))
  case oid.oid =>
    obtain ⟨c, h1, h2⟩ := hv
    obtain ⟨c', h1', h2'⟩ := hw
    cases h1.symm.trans h1'
    exact congrArg _ (arcsCode_unique h2 h2')
  case relativeOid.relativeOid =>
    obtain ⟨c, h1, h2⟩ := hv
    obtain ⟨c', h1', h2'⟩ := hw
    cases h1.symm.trans h1'
    exact congrArg _ (subIds_unique h2 h2')
  case enumerated.enumerated z z' =>
    have := Outcome.ok.inj (hv.2.1.symm.trans hw.2.1)
    have h0 := hv.1
    have h1 := hw.1
    exact congrArg _ (by omega)
  case text.text k a k' b =>
    obtain rfl := strTag_inj hn
    exact congrArg _ (utf8_inj hv.1 hw.1 (Outcome.ok.inj (hv.2.1.symm.trans hw.2.1)))
  case universalText.universalText a b =>
    have := congrArg utf32Units (Outcome.ok.inj (hv.2.symm.trans hw.2))
    exact congrArg _ ((utf32Units_flatMap a hv.1).symm.trans (this.trans (utf32Units_flatMap b hw.1)))
  case bmp.bmp a b =>
    have := congrArg (fun s => decodeUtf16 (utf16Units s)) (Outcome.ok.inj (hv.2.symm.trans hw.2))
    exact congrArg _ (Option.some.inj ((decodeUtf16_flatMap a hv.1).symm.trans (this.trans (decodeUtf16_flatMap b hw.1))))
  case utcTime.utcTime => cases hv.symm.trans hw; rfl
  case generalizedTime.generalizedTime => cases hv.symm.trans hw; rfl
  case other.other =>
    obtain ⟨_, h1, h2⟩ := hv
    obtain ⟨_, h1', h2'⟩ := hw
    cases h2.symm.trans h2'
    cases h1.symm.trans h1'
    cases (show _ = _ from hc)
    cases (show _ = _ from hn)
    rfl

theorem answers_not_list {o : BerObject} {v : Value} (hc : v.cls = .universal) (hn : v.num = 16 ∨ v.num = 17) :
    ¬ Answers o v := by
  intro h
  cases v with
  | sequence _ | set _ => exact h.elim
  | other _ _ _ _ => exact h.1 hc
  | text k _ =>
    have := strTag_range k
    rcases hn with hn | hn <;> (rw [show strTag k = _ from hn] at this; exact absurd this (by decide))
  | _ => exact absurd hn (by simp [Value.num])

theorem values_unique {ps qs : List (BerObject × Value)} (h : ps.map Prod.fst = qs.map Prod.fst)
    (ih : ∀ p ∈ ps, ∀ v, HasValue p.1 v → p.2 = v) (hq : ∀ q ∈ qs, HasValue q.1 q.2) :
    ps.map Prod.snd = qs.map Prod.snd := by
  induction ps generalizing qs with
  | nil =>
    cases qs with
    | nil => rfl
    | cons => simp at h
  | cons p ps ihp =>
    cases qs with
    | nil => simp at h
    | cons q qs =>
      simp only [List.map_cons, List.cons.injEq] at h ⊢
      exact ⟨ih p (by simp) _ (h.1 ▸ hq q (by simp)), ihp h.2 (fun p hp => ih p (by simp [hp])) fun q hq' => hq q (by simp [hq'])⟩

/-! ## C123 -/

/-- C123: an object has at most one value. -/
theorem C123_one_value (o : BerObject) (v w : Value) (hv : HasValue o v) (hw : HasValue o w) : v = w := by
  induction hv generalizing w with
  | leaf o v h1 h2 h3 =>
    cases hw with
    | leaf _ _ g1 g2 g3 => exact answers_unique (h1.symm.trans g1) (h2.symm.trans g2) h3 g3
    | sequence _ _ g1 g2 => exact absurd h3 (answers_not_list (h1.symm.trans g1) (.inl (h2.symm.trans g2)))
    | set _ _ g1 g2 => exact absurd h3 (answers_not_list (h1.symm.trans g1) (.inr (h2.symm.trans g2)))
  | sequence o ps h1 h2 h3 h4 ih =>
    cases hw with
    | leaf _ _ g1 g2 g3 => exact absurd g3 (answers_not_list (g1.symm.trans h1) (.inl (g2.symm.trans h2)))
    | sequence _ qs g1 g2 g3 g4 => exact congrArg _ (values_unique (Outcome.ok.inj (h3.symm.trans g3)) ih g4)
    | set _ _ g1 g2 => rw [h2] at g2; cases g2
  | set o ps h1 h2 h3 h4 ih =>
    cases hw with
    | leaf _ _ g1 g2 g3 => exact absurd g3 (answers_not_list (g1.symm.trans h1) (.inr (g2.symm.trans h2)))
    | sequence _ _ g1 g2 => rw [h2] at g2; cases g2
    | set _ qs g1 g2 g3 g4 => exact congrArg _ (values_unique (Outcome.ok.inj (h3.symm.trans g3)) ih g4)

example := C123_one_value (.mk ⟨.universal, false, 4, .definite 1, some [4]⟩ (.octetString [0xff])) _ _ (.leaf _ (.octets [0xff]) rfl rfl rfl)
  (.leaf _ (.octets [0xff]) rfl rfl rfl)

/-- C123: encodings of values, in one piece, are BER documents. -/
theorem C123_is_ber (D : Deps) (X : Bytes → Prop) (P : Bool → Value → Prop) (hP : ∀ v, ¬ P true v) (N d n : Nat) (v : Value)
    (e : Bytes) (H : Codes D X P N d n v e) : BerDoc X (fun _ _ _ _ => True) N d n e := by
  induction H with
  | primitive d n id len c v h1 h2 h3 h4 h5 => exact .primitive d n id len c _ _ h1 h2 (fun _ => h3) trivial
  | other d n id len c cls k num h0 h1 h2 h3 =>
    cases k with
    | false => exact .primitive d n id len c _ _ h1 h2 (fun h => absurd h h0) trivial
    | true => exact .constructed d n id len c _ _ h1 h2 (.inl h0) trivial
  | otherIndefinite d n id es cls num h0 h1 h3 h4 => exact .constructedIndefinite d n id es _ _ h1 (.inl h0) trivial h4
  | list d n id len ps num v h1 h2 h3 h4 ih =>
    refine .list d n id len _ num h1 ?_ h3 ?_
    · rcases h2 with ⟨h, _⟩ | ⟨h, _⟩
      · exact .inl h
      · exact .inr h
    · intro e he
      obtain ⟨p, hp, rfl⟩ := List.mem_map.1 he
      exact ih p hp
  | listIndefinite d n id ps num v h1 h2 h3 h4 ih =>
    refine .listIndefinite d n id _ num h1 ?_ ?_ ?_
    · rcases h2 with ⟨h, _⟩ | ⟨h, _⟩
      · exact .inl h
      · exact .inr h
    · intro e he
      obtain ⟨p, hp, rfl⟩ := List.mem_map.1 he
      exact ih p hp
    · intro e he
      obtain ⟨p, hp, rfl⟩ := List.mem_map.1 he
      exact h4 p hp
  | segments d n id len ps h1 h2 h3 => exact absurd h3 (hP _)
  | segmentsIndefinite d n id ps h1 h2 => exact absurd h2 (hP _)

example := C123_is_ber Tests.D0 LooseEoc (fun s _ => s = false) (by simp) 50 50 50 _ _ (codes_small _ _ rfl)

theorem subIds_exist : ∀ {ss : List Bytes}, (∀ s ∈ ss, ∃ ms last, s = ms ++ [last] ∧ (∀ m ∈ ms, 128 ≤ m.toNat) ∧
    last.toNat < 128 ∧ ms.head? ≠ some 0x80) → ∃ ns, ns.length = ss.length ∧ SubIds ns ss.flatten
  | [], _ => ⟨[], rfl, .nil⟩
  | s :: ss, H => by
    obtain ⟨ns, h1, h2⟩ := subIds_exist (ss := ss) fun x hx => H x (by simp [hx])
    obtain ⟨ms, last, rfl, g1, g2, g3⟩ := H s (by simp)
    refine ⟨base128 (ms ++ [last]) :: ns, by simp [h1], .cons _ _ _ _ ⟨ms, last, rfl, g1, g2, rfl, ?_⟩ h2⟩
    cases ms with
    | nil =>
      intro h
      simp only [List.nil_append, List.head?_cons, Option.some.injEq] at h
      subst h
      exact absurd g2 (by decide)
    | cons m ms => simpa using g3

/-- Contents octets of a known type have a value. -/
theorem means_exists {D : Deps} {c : Bytes} {num : Nat} (h : BerPrim num c) (hk : KnownType D .universal false num c) :
    ∃ v : Value, v.num = num ∧ Means D v c := by
  have ascii : ∀ {k}, PlainText k → IsUtf8 c → ∃ v : Value, v.num = strTag k ∧ Means D v c := by
    rintro k hk ⟨cs, h1, h2⟩
    exact ⟨.text k cs, rfl, hk, h1, h2⟩
  rcases (hk rfl).2 with h' | ⟨rfl, cs, h1, h2⟩ | ⟨rfl, t, h1⟩ | ⟨rfl, t, h1⟩
  · simp only [List.mem_cons, List.not_mem_nil, or_false] at h'
    rcases h' with rfl | rfl | rfl | rfl | rfl | rfl | rfl | rfl | rfl | rfl | rfl | rfl | rfl | rfl
    · match c, h with
      | [b], _ => exact ⟨.boolean (decide (b ≠ 0)), rfl, b, rfl, by simp⟩
    · exact ⟨.integer _, rfl, rfl⟩
    · obtain ⟨u, s, rfl, _⟩ := h
      exact ⟨.bits _, rfl, u, s, rfl, rfl⟩
    · exact ⟨.octets c, rfl, rfl⟩
    · exact ⟨.null, rfl, h⟩
    · obtain ⟨ss, h1, rfl, h3⟩ := h
      obtain ⟨ns, g1, g2⟩ := subIds_exist h3
      cases ns with
      | nil => exact absurd (List.length_eq_zero_iff.1 g1.symm) h1
      | cons n ns =>
        by_cases a1 : n < 40
        · exact ⟨.oid (0 :: n :: ns), rfl, 0, n, ns, rfl, by omega, by omega, by simpa using g2⟩
        · by_cases a2 : n < 80
          · exact ⟨.oid (1 :: (n - 40) :: ns), rfl, 1, n - 40, ns, rfl, by omega, by omega,
              by rw [show 40 * 1 + (n - 40) = n by omega]; exact g2⟩
          · exact ⟨.oid (2 :: (n - 80) :: ns), rfl, 2, n - 80, ns, rfl, by omega, by omega,
              by rw [show 40 * 2 + (n - 80) = n by omega]; exact g2⟩
    · exact ⟨.enumerated _, rfl, rfl⟩
    · exact ascii (k := .utf8) (by simp [PlainText]) h
    · obtain ⟨ss, h1, rfl, h3⟩ := h
      obtain ⟨ns, g1, g2⟩ := subIds_exist h3
      exact ⟨.relativeOid ns, rfl, g2⟩
    · refine ascii (k := .numeric) (by simp [PlainText]) (isUtf8_ascii fun b hb => ?_)
      rcases h b hb with h | h
      · omega
      · have := h.2; omega
    · refine ascii (k := .printable) (by simp [PlainText]) (isUtf8_ascii fun b hb => ?_)
      rcases h b hb with h | h | h | h
      · omega
      · omega
      · have := h.2; omega
      · simp only [List.mem_cons, List.not_mem_nil, or_false] at h; omega
    · exact ascii (k := .ia5) (by simp [PlainText]) (isUtf8_ascii h)
    · exact ascii (k := .visible) (by simp [PlainText]) (isUtf8_ascii fun b hb => by have := (h b hb).2; omega)
    · obtain ⟨cs, h1, h2⟩ := h
      exact ⟨.bmp cs, rfl, fun x hx => (h1 x hx).1, h2⟩
  · exact ⟨.universalText cs, rfl, h1, h2⟩
  · exact ⟨.utcTime t, rfl, h1⟩
  · exact ⟨.generalizedTime t, rfl, h1⟩

theorem pairs_exist {R : Value → Bytes → Prop} : ∀ {es : List Bytes}, (∀ e ∈ es, ∃ v, R v e) →
    ∃ ps : List (Value × Bytes), ps.map Prod.snd = es ∧ ∀ p ∈ ps, R p.1 p.2
  | [], _ => ⟨[], rfl, by simp⟩
  | e :: es, H => by
    obtain ⟨ps, h1, h2⟩ := pairs_exist (es := es) fun x hx => H x (by simp [hx])
    obtain ⟨v, hv⟩ := H e (by simp)
    refine ⟨(v, e) :: ps, by simp [h1], fun p hp => ?_⟩
    rcases List.mem_cons.1 hp with rfl | hp
    · exact hv
    · exact h2 p hp

/-- C123: every BER document all of whose elements are of known types encodes a value. -/
theorem C123_every_document (D : Deps) (X : Bytes → Prop) (N d n : Nat) (e : Bytes) (H : BerDoc X (KnownType D) N d n e) :
    ∃ v, Codes D X (fun seg _ => seg = false) N d n v e := by
  induction H with
  | primitive d n id len c cls num h1 h2 h3 h4 =>
    by_cases hu : cls = .universal
    · subst hu
      obtain ⟨v, rfl, hv⟩ := means_exists (h3 rfl) h4
      exact ⟨v, .primitive d n id len c v h1 h2 (h3 rfl) hv rfl⟩
    · exact ⟨_, .other d n id len c cls false num hu h1 h2 rfl⟩
  | constructed d n id len c cls num h1 h2 h3 h4 =>
    exact ⟨_, .other d n id len c cls true num (fun hu => by have := (h4 hu).1; cases this) h1 h2 rfl⟩
  | constructedIndefinite d n id es cls num h1 h2 h3 h4 =>
    exact ⟨_, .otherIndefinite d n id es cls num (fun hu => by have := (h3 hu).1; cases this) h1 rfl h4⟩
  | list d n id len es num h1 h2 h3 h4 ih =>
    obtain ⟨ps, rfl, hp⟩ := pairs_exist ih
    rcases h2 with rfl | rfl
    · exact ⟨_, .list d n id len ps 16 _ h1 (.inl ⟨rfl, rfl⟩) h3 hp⟩
    · exact ⟨_, .list d n id len ps 17 _ h1 (.inr ⟨rfl, rfl⟩) h3 hp⟩
  | listIndefinite d n id es num h1 h2 h3 h4 ih =>
    obtain ⟨ps, rfl, hp⟩ := pairs_exist ih
    have h5 : ∀ p ∈ ps, ¬ X p.2 := fun p hp => h4 _ (List.mem_map_of_mem hp)
    rcases h2 with rfl | rfl
    · exact ⟨_, .listIndefinite d n id ps 16 _ h1 (.inl ⟨rfl, rfl⟩) hp h5⟩
    · exact ⟨_, .listIndefinite d n id ps 17 _ h1 (.inr ⟨rfl, rfl⟩) hp h5⟩

example := C123_every_document Tests.D0 LooseEoc 50 50 50 [0x02, 0x81, 0x02, 0xff, 0x7f]
  (.primitive 49 49 [0x02] [0x81, 0x02] [0xff, 0x7f] .universal 2 (minIdent_low 0x02 (by decide)) (.long 0x81 [2] (by decide) (by decide) rfl)
    (fun _ => ⟨by simp, by decide, by decide⟩) (by simp [KnownType]))

/-- C123: no octets encode two readable values. -/
theorem C123_unambiguous (D : Deps) (d : Nat) (v w : Value) (e : Bytes) (hv : Codes D LooseEoc Readable 50 d 50 v e)
    (hw : Codes D LooseEoc Readable 50 d 50 w e) (hl : e.length < 2 ^ 64) : v = w := by
  obtain ⟨o, h1, h2⟩ := C123_value_partial D d v e [] hv hl
  obtain ⟨o', h1', h2'⟩ := C123_value_partial D d w e [] hw hl
  rw [h1] at h1'
  cases h1'
  exact C123_one_value _ _ _ h2 h2'

/-- The hypotheses can be met: SEQUENCE of indefinite length with BOOLEAN true (as 05), INTEGER -129 (length in the long
form), OBJECT IDENTIFIER 2.100.3, UTF8String "é", BIT STRING 101, and `[1]` with contents 41. -/
example (D : Deps) : Codes D LooseEoc (fun s v => Readable s v ∧ Rewritable s v) 50 50 50
    (.sequence [.boolean true, .integer (-129), .oid [2, 100, 3], .text .utf8 [0xe9], .bits [true, false, true],
      .other .contextSpecific false 1 [0x41]])
    [0x30, 0x80, 0x01, 0x01, 0x05, 0x02, 0x81, 0x02, 0xff, 0x7f, 0x06, 0x03, 0x81, 0x34, 0x03, 0x0c, 0x02, 0xc3, 0xa9,
      0x03, 0x02, 0x05, 0xbf, 0x81, 0x01, 0x41, 0x00, 0x00] := by
  have nz : ∀ (b : UInt8) (len c : Bytes), b.toNat % 32 ≠ 31 → b.toNat % 32 ≠ 0 → LenOctets len (.definite c.length) →
      c.length < 2 ^ 64 → ¬ LooseEoc (([b] ++ len) ++ c) := fun b len c h1 h2 h3 h4 h =>
    h2 ((looseEoc_iff (berHeader_of (minIdent_low b h1) h3 (by omega) h4) rfl rfl).1 h).2
  have s1 := LenOctets.short 1 (by decide)
  have s2 := LenOctets.short 2 (by decide)
  have s3 := LenOctets.short 3 (by decide)
  have l2 := LenOctets.long 0x81 [2] (by decide) (by decide) rfl
  have id3 : SubIds [180, 3] [0x81, 0x34, 0x03] :=
    .cons 180 [3] [0x81, 0x34] [0x03] ⟨[0x81], 0x34, rfl, by simp, by decide, by decide, by decide⟩
      (.cons 3 [] [0x03] [] ⟨[], 0x03, rfl, by simp, by decide, by decide, by decide⟩ .nil)
  refine .listIndefinite 49 48 [0x30] [(.boolean true, [0x01, 0x01, 0x05]),
    (.integer (-129), [0x02, 0x81, 0x02, 0xff, 0x7f]), (.oid [2, 100, 3], [0x06, 0x03, 0x81, 0x34, 0x03]),
    (.text .utf8 [0xe9], [0x0c, 0x02, 0xc3, 0xa9]), (.bits [true, false, true], [0x03, 0x02, 0x05, 0xbf]),
    (.other .contextSpecific false 1 [0x41], [0x81, 0x01, 0x41])] 16 _
    (minIdent_low 0x30 (by decide)) (.inl ⟨rfl, rfl⟩) ?_ ?_
  · simp only [List.forall_mem_cons, List.not_mem_nil, false_imp_iff, implies_true, and_true]
    refine ⟨.primitive 48 48 [0x01] [0x01] [0x05] (.boolean true) (minIdent_low 0x01 (by decide)) s1 rfl
        ⟨5, rfl, by decide⟩ ⟨⟨rfl, trivial⟩, rfl, trivial⟩,
      .primitive 48 48 [0x02] [0x81, 0x02] [0xff, 0x7f] (.integer (-129)) (minIdent_low 0x02 (by decide)) l2
        ⟨by simp, by decide, by decide⟩ (by decide : twosComplement [0xff, 0x7f] = -129) ⟨⟨rfl, trivial⟩, rfl, trivial⟩,
      .primitive 48 48 [0x06] [0x03] [0x81, 0x34, 0x03] (.oid [2, 100, 3]) (minIdent_low 0x06 (by decide)) s3
        ⟨[[0x81, 0x34], [0x03]], by simp, rfl, ?_⟩ ⟨2, 100, [3], rfl, by decide, by decide, id3⟩
        ⟨⟨rfl, trivial⟩, rfl, trivial⟩,
      .primitive 48 48 [0x0c] [0x02] [0xc3, 0xa9] (.text .utf8 [0xe9]) (minIdent_low 0x0c (by decide)) s2
        ⟨[0xe9], by simp [IsScalar], by decide⟩ ⟨by simp [PlainText], by simp [IsScalar], by decide⟩
        ⟨⟨rfl, trivial⟩, rfl, trivial⟩,
      .primitive 48 48 [0x03] [0x02] [0x05, 0xbf] (.bits [true, false, true]) (minIdent_low 0x03 (by decide)) s2
        ⟨5, [0xbf], rfl, by decide, by simp⟩ ⟨5, [0xbf], rfl, by decide⟩ ⟨⟨rfl, trivial⟩, rfl, trivial⟩,
      .other 48 48 [0x81] [0x01] [0x41] .contextSpecific false 1 (by decide) (minIdent_low 0x81 (by decide)) s1
        ⟨⟨rfl, by decide⟩, rfl, by decide⟩⟩
    simp only [List.forall_mem_cons, List.not_mem_nil, false_imp_iff, implies_true, and_true]
    exact ⟨⟨[0x81], 0x34, rfl, by simp, by decide, by decide⟩, ⟨[], 0x03, rfl, by simp, by decide, by decide⟩⟩
  · simp only [List.forall_mem_cons, List.not_mem_nil, false_imp_iff, implies_true, and_true]
    exact ⟨nz 0x01 [0x01] [0x05] (by decide) (by decide) s1 (by decide),
      nz 0x02 [0x81, 0x02] [0xff, 0x7f] (by decide) (by decide) l2 (by decide),
      nz 0x06 [0x03] [0x81, 0x34, 0x03] (by decide) (by decide) s3 (by decide),
      nz 0x0c [0x02] [0xc3, 0xa9] (by decide) (by decide) s2 (by decide),
      nz 0x03 [0x02] [0x05, 0xbf] (by decide) (by decide) s2 (by decide),
      nz 0x81 [0x01] [0x41] (by decide) (by decide) s1 (by decide)⟩

end Verif
