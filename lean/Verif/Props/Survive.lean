import Verif.Props.Canonical
import Verif.Props.Limits
/-!
# Properties C46 and C47: exactly which objects survive serialization
-/
namespace Verif
open Outcome Spec

/-! ## Lemmas -/

theorem leaf_wf {D : Deps} {h h' : Header} {v : Bytes} {x x' : Content} (hL : Leaf D h' v x')
    (hk : SameKind h' h) (ht : h.tag ≤ 30) (hx : eraseC x' = eraseC x) (hv : EncodesC D x v) : WfLeaf D h x := by
  obtain ⟨k1, k2, k3⟩ := hk
  cases x' <;> simp only [Leaf] at hL <;> cases x <;>
    simp only [eraseC, reduceCtorEq, Content.utcTime.injEq, Content.generalizedTime.injEq, Content.str.injEq,
      Content.unknown.injEq, Any.mk.injEq, Content.enum.injEq, Content.bmpString.injEq] at hx <;>
    simp only [WfLeaf, ← k1, ← k2, ← k3]
  case unknown.unknown a a' =>
    obtain ⟨rfl, h2⟩ := hL
    simp only [eraseH, Header.mk.injEq] at hx
    refine ⟨⟨by rw [← k1, hx.1.1], by rw [← k2, hx.1.2.1], by rw [← k3, hx.1.2.2.1]⟩, ?_⟩
    rcases h2 with h2 | h2 | h2
    · exact .inl h2
    · exact .inr h2
    · omega
  case utcTime.utcTime t t' =>
    simp only [EncodesC] at hv
    subst hx hv
    exact hL
  case generalizedTime.generalizedTime t t' =>
    simp only [EncodesC] at hv
    subst hx hv
    exact hL
  case enum.enum n n' => subst hx; exact ⟨hL.1, hL.2.1, hL.2.2.1, hL.2.2.2.2⟩
  case str.str k s k' s' =>
    obtain ⟨rfl, rfl⟩ := hx
    obtain ⟨h1, h2, h3, rfl, h4, h5⟩ := hL
    exact ⟨h1, h2, h3, h4, h5⟩
  case bmpString.bmpString s s' =>
    subst hx
    obtain ⟨h1, h2, h3, rfl, h4⟩ := hL
    exact ⟨h1, h2, h3, h4⟩
  all_goals first | exact ⟨hL.1, hL.2.1, hL.2.2.1⟩ | exact ⟨hL.1, hL.2.1⟩ | exact ⟨hL.1, hL.2⟩

theorem items_wf {D : Deps} {d : Nat} {items : List Item} {l : List BerObject}
    (hE : eraseL (items.map fun it => .mk it.header it.value) = eraseL l)
    (hz : ∀ p ∈ l.zip (items.map Item.bytes), Encodes D p.1 p.2)
    (ih : ∀ it ∈ items, ∀ o, Encodes D o it.bytes → erase (.mk it.header it.value) = erase o → Wf D d o) :
    ∀ o ∈ l, Wf D d o := by
  induction items generalizing l with
  | nil =>
    cases l with
    | nil => simp
    | cons o l => simp [eraseL] at hE
  | cons it items ih' =>
    cases l with
    | nil => simp
    | cons o l =>
      simp only [List.map_cons, eraseL, List.cons.injEq] at hE
      intro o' ho'
      rcases List.mem_cons.1 ho' with rfl | ho'
      · exact ih it (by simp) _ (hz (_, it.bytes) (by simp)) hE.1
      · exact ih' hE.2 (fun p hp => hz p (by simp [hp])) (fun it' h' => ih it' (by simp [h'])) o' ho'

theorem eraseL_length : ∀ l : List BerObject, (eraseL l).length = l.length
  | [] => rfl
  | o :: l => by simp [eraseL, eraseL_length l]

/-- The pieces of an encoded list are the elements that were read. -/
theorem pieces_items {D : Deps} {items : List Item} {l : List BerObject} {v : Bytes}
    (hF : ∀ it ∈ items, Framed 50 it.bytes it.header it.body) (hv : EncodesL D l v)
    (hc : items.flatMap Item.bytes = v) (hl : v.length < 2 ^ 64) :
    ∀ p ∈ l.zip (items.map Item.bytes), Encodes D p.1 p.2 := by
  obtain ⟨es, h1, h2, h3⟩ := encodesL_pieces hv
  have hfl : (items.map Item.bytes).flatten = es.flatten := by rw [← h1, ← hc, List.flatMap_def]
  have hes : items.map Item.bytes = es := frames_unique (fun e he => by
      obtain ⟨it, hit, rfl⟩ := List.mem_map.1 he
      exact ⟨_, _, hF it hit⟩) (fun e he => by
      obtain ⟨n, hn, rfl⟩ := List.getElem_of_mem he
      have := h3 (l[n]'(by omega), es[n]) (List.mem_iff_getElem.2 ⟨n, by simp at h2 ⊢; omega, by simp⟩)
      exact encodes_framed this (Nat.lt_of_le_of_lt (length_le_flatten he) (h1 ▸ hl))) hfl
  rw [hes]
  exact h3

theorem encodes_wf {D : Deps} {d : Nat} {h' : Header} {c' : Bytes} {x' : Content} (hD : Denotes D d h' c' x') :
    ∀ {o : BerObject} {e : Bytes}, Encodes D o e → e.length < 2 ^ 64 → Framed 50 e h' c' →
      erase (.mk h' x') = erase o → Wf D d o := by
  induction hD with
  | leaf d h' c' x' hL =>
    rintro ⟨h, x⟩ e ⟨b, len, v, rfl, h1, h2, h3⟩ hl hF hE
    have hv : v.length < 2 ^ 64 := by simp only [List.length_cons, List.length_append] at hl; omega
    obtain ⟨_, _, rfl, rfl⟩ := framed_unique (r := []) (r' := []) hF (minFramed h1 h2 hv) rfl
    simp only [erase, BerObject.mk.injEq] at hE
    have ht := (identOctet_iff (h := h)).1 h1
    exact .leaf d h x ht.1 (leaf_wf hL ⟨rfl, rfl, rfl⟩ ht.1 hE.2 h3)
  | sequence d h' items g1 g2 g3 g4 g5 ih =>
    rintro ⟨h, x⟩ e ⟨b, len, v, rfl, h1, h2, h3⟩ hl hF hE
    have hv : v.length < 2 ^ 64 := by simp only [List.length_cons, List.length_append] at hl; omega
    obtain ⟨_, _, rfl, hc⟩ := framed_unique (r := []) (r' := []) hF (minFramed h1 h2 hv) rfl
    simp only [erase, BerObject.mk.injEq] at hE
    cases x <;> simp only [eraseC, reduceCtorEq, and_false, Content.sequence.injEq] at hE
    rename_i l
    have hz := pieces_items g4 h3 hc hv
    refine .sequence d h l g1 g2 g3 (items_wf hE.2 hz fun it hit o ho hEo => ?_)
    refine ih it hit ho ?_ (g4 it hit) hEo
    have : it.bytes.length ≤ (items.map Item.bytes).flatten.length := length_le_flatten (List.mem_map_of_mem hit)
    rw [← List.flatMap_def, hc] at this
    omega
  | set d h' items g1 g2 g3 g4 g5 ih =>
    rintro ⟨h, x⟩ e ⟨b, len, v, rfl, h1, h2, h3⟩ hl hF hE
    have hv : v.length < 2 ^ 64 := by simp only [List.length_cons, List.length_append] at hl; omega
    obtain ⟨_, _, rfl, hc⟩ := framed_unique (r := []) (r' := []) hF (minFramed h1 h2 hv) rfl
    simp only [erase, BerObject.mk.injEq] at hE
    cases x <;> simp only [eraseC, reduceCtorEq, and_false, Content.set.injEq] at hE
    rename_i l
    have hz := pieces_items g4 h3 hc hv
    refine .set d h l g1 g2 g3 (items_wf hE.2 hz fun it hit o ho hEo => ?_)
    refine ih it hit ho ?_ (g4 it hit) hEo
    have : it.bytes.length ≤ (items.map Item.bytes).flatten.length := length_le_flatten (List.mem_map_of_mem hit)
    rw [← List.flatMap_def, hc] at this
    omega

theorem wf_times {D : Deps} {d : Nat} {o : BerObject} (hW : Wf D d o) : ∀ o', Node o' o →
    (∀ t, o'.content = .utcTime t → D.utcTime o'.header.constructed (D.display t) = .ok t) ∧
    (∀ t, o'.content = .generalizedTime t → D.generalizedTime o'.header.constructed (D.display t) = .ok t) := by
  induction hW with
  | leaf d h x _ hw =>
    intro o' hn
    cases hn with
    | self =>
      refine ⟨fun t hx => ?_, fun t hx => ?_⟩ <;> (subst hx; exact hw.2.2)
    | seq => exact hw.elim
    | set => exact hw.elim
  | sequence d h l _ _ _ _ ih =>
    intro o' hn
    cases hn with
    | self => exact ⟨fun t hx => (by cases hx), fun t hx => (by cases hx)⟩
    | seq _ _ o ho hn => exact ih o ho o' hn
  | set d h l _ _ _ _ ih =>
    intro o' hn
    cases hn with
    | self => exact ⟨fun t hx => (by cases hx), fun t hx => (by cases hx)⟩
    | set _ _ o ho hn => exact ih o ho o' hn

theorem tagsOkL_mem : ∀ {l : List BerObject} {o : BerObject}, TagsOkL l → o ∈ l → TagsOk o
  | o' :: l, o, h, ho => by
    rcases List.mem_cons.1 ho with rfl | ho
    · exact h.1
    · exact tagsOkL_mem h.2 ho

theorem node_tagsOk {o o' : BerObject} (hn : Node o' o) (h : TagsOk o) : o'.header.tag ≤ 30 := by
  induction hn with
  | self => obtain ⟨hd, x⟩ := o'; exact h.1
  | seq hd l o ho _ ih => exact ih (tagsOkL_mem h.2 ho)
  | set hd l o ho _ ih => exact ih (tagsOkL_mem h.2 ho)

/-! ## C46, C47 -/

/-- C46, exactly: of all objects that a program can build, those that are read back as themselves (apart from
stored lengths and raw tags) after serialization are the well-formed ones, and no others. -/
theorem C46_iff (D : Deps) (o : BerObject) (e : Bytes) (he : toVec D o = .ok e) (hl : e.length < 2 ^ 64) :
    (∃ o', parseBer D e = .ok ([], o') ∧ erase o' = erase o) ↔ Wf D 50 o := by
  constructor
  · rintro ⟨o', h1, h2⟩
    obtain ⟨e1, c, h3, h4, h5⟩ := parseBerRecursive_iff.1 h1
    rw [List.append_nil] at h3
    subst h3
    exact encodes_wf h5 ((C49_exact D o e hl).1 he) hl h4 (by rw [BerObject.eta]; exact h2)
  · intro hW
    obtain ⟨e', h1, h2⟩ := C46_serialize_parse D o hW
    rw [he] at h1
    cases h1
    obtain ⟨o', h3, h4⟩ := h2 hl []
    rw [List.append_nil] at h3
    exact ⟨o', h3, h4⟩

example := (C46_iff Tests.D0 (.fromSeq [.fromObj (.integer [5])]) [0x30, 0x03, 0x02, 0x01, 0x05] (by decide +kernel) (by decide)).1
  ⟨_, rfl, rfl⟩

/-- C47, exactly: what was read survives serialization precisely if every time in it is read back from its written
form.  (The full statement is false, see `C47_times_counterexample` and `C47_times_conflict`.) -/
theorem C47_iff_partial (D : Deps) (i rem e : Bytes) (o : BerObject) (h : parseBer D i = .ok (rem, o))
    (he : toVec D o = .ok e) (hl : e.length < 2 ^ 64) :
    (∃ o', parseBer D e = .ok ([], o') ∧ erase o' = erase o) ↔
      ∀ o', Node o' o →
        (∀ t, o'.content = .utcTime t → D.utcTime o'.header.constructed (D.display t) = .ok t) ∧
        (∀ t, o'.content = .generalizedTime t → D.generalizedTime o'.header.constructed (D.display t) = .ok t) := by
  rw [C46_iff D o e he hl]
  refine ⟨wf_times, fun ht => ?_⟩
  obtain ⟨_, c, _, _, h3⟩ := parseBerRecursive_iff.1 h
  have hk : ∀ o', Node o' o → o'.header.tag ≤ 30 := fun o' hn =>
    node_tagsOk hn (((C47_panics_iff D o).2).1 ⟨e, he⟩)
  rw [← BerObject.eta o]
  exact denotes_wf h3 (by simpa using hk) (by simpa using fun o' hn => (ht o' hn).1)
    (by simpa using fun o' hn => (ht o' hn).2)

example := (C47_iff_partial Tests.D0 [0x30, 0x80, 0x02, 0x01, 0x05, 0, 0, 9] [9] [0x30, 0x03, 0x02, 0x01, 0x05] _ rfl (by decide +kernel)
  (by decide)).1 ⟨_, rfl, rfl⟩

/-- A primitive element with tag octet `b` and contents `c`. -/
def Spec.short (b : UInt8) (c : Bytes) : Bytes := b :: UInt8.ofNat c.length :: c

/-- An element survives: it is read, written, and read again with the same result. -/
def Spec.Survives (D : Deps) (e : Bytes) : Prop :=
  ∃ o w, parseBer D e = .ok ([], o) ∧ toVec D o = .ok w ∧ ∃ o', parseBer D w = .ok ([], o') ∧ erase o' = erase o

/-- C47: UTCTime and GeneralizedTime values are written by one function (`ber_encode_datetime`).  So, whatever it
writes, a time that can be read in both forms but not from the same octets (in UTCTime the year has two digits, in
GeneralizedTime four) does not survive in one of them.  Both elements are accepted. -/
theorem C47_times_conflict (D : Deps) (u g : Bytes) (t : DateTime) (hu : D.utcTime false u = .ok t)
    (hg : D.generalizedTime false g = .ok t) (hul : u.length < 128) (hgl : g.length < 128)
    (hw : (D.display t).length < 2 ^ 63)
    (hd : ∀ b, D.utcTime false b = .ok t → D.generalizedTime false b ≠ .ok t) :
    (∃ o, parseBer D (short 0x17 u) = .ok ([], o)) ∧ (∃ o, parseBer D (short 0x18 g) = .ok ([], o)) ∧
      ¬ (Survives D (short 0x17 u) ∧ Survives D (short 0x18 g)) := by
  have hdr : ∀ b : UInt8, ∀ c : Bytes, b.toNat % 32 < 31 → c.length < 128 →
      Framed 50 (short b c) ⟨classOf b, constructedBit b, b.toNat % 32, .definite c.length, some [b]⟩ c := by
    intro b c hb hc
    have e : (UInt8.ofNat c.length).toNat = c.length := by simp; omega
    have := berHeader_short b (UInt8.ofNat c.length) (by omega) (by omega)
    rw [e] at this
    exact .definite [b, UInt8.ofNat c.length] c _ this rfl
  have p1 : parseBer D (short 0x17 u) = .ok ([], .mk _ (.utcTime t)) :=
    parseBerRecursive_iff.2 ⟨_, u, by simp, hdr 0x17 u (by decide) hul, .leaf 49 _ _ _ ⟨rfl, rfl, hu⟩⟩
  have p2 : parseBer D (short 0x18 g) = .ok ([], .mk _ (.generalizedTime t)) :=
    parseBerRecursive_iff.2 ⟨_, g, by simp, hdr 0x18 g (by decide) hgl, .leaf 49 _ _ _ ⟨rfl, rfl, hg⟩⟩
  refine ⟨⟨_, p1⟩, ⟨_, p2⟩, ?_⟩
  rintro ⟨⟨o1, w1, q1, q2, q3⟩, ⟨o2, w2, r1, r2, r3⟩⟩
  rw [p1] at q1; cases q1
  rw [p2] at r1; cases r1
  have len : ∀ o w, toVec D o = .ok w → o.content = .utcTime t ∨ o.content = .generalizedTime t → w.length < 2 ^ 64 := by
    rintro ⟨h, x⟩ w he hx
    have hc : encodeContent D x = .ok (D.display t) := by rcases hx with hx | hx <;> (cases hx; rfl)
    simp only [toVec, encodeObject, hc, ok_bind, encodeHeader] at he
    split at he
    · simp at he
    · simp only [ok_bind, ok.injEq] at he
      have h8 : (encodeLength (.definite (D.display t).length)).length ≤ 9 := by
        rw [encodeLength_definite]
        split
        · simp
        · have h1 : (skipZeroes (toBeBytes 8 (D.display t).length)).length ≤ 8 := by
            have := (List.dropWhile_sublist (l := toBeBytes 8 (D.display t).length) (· == 0)).length_le
            rw [toBeBytes_length] at this
            exact this
          simp only [List.length_cons]; omega
      rw [← he]
      simp only [List.cons_append, List.length_cons, List.length_append]
      omega
  have s1 := ((C47_iff_partial D _ _ _ _ p1 q2 (len _ _ q2 (.inl rfl))).1 q3 _ .self).1 t rfl
  have s2 := ((C47_iff_partial D _ _ _ _ p2 r2 (len _ _ r2 (.inr rfl))).1 r3 _ .self).2 t rfl
  exact hd _ s1 s2

/-- A date library that knows the time 92-05-21 23:42:00Z of tests/der_parser.rs:294-306 in both forms and writes
years with four digits. -/
def Tests.DT : Deps :=
  { Tests.D0 with
    utcTime := fun _ c => if c = "9205212342Z".toUTF8.toList then .ok ⟨[92, 5, 21, 23, 42, 0]⟩ else .error .invalidDateTime
    generalizedTime := fun _ c =>
      if c = "00920521234200Z".toUTF8.toList then .ok ⟨[92, 5, 21, 23, 42, 0]⟩ else .error .invalidDateTime
    display := fun _ => "00920521234200Z".toUTF8.toList }

example : ¬ (Survives Tests.DT (short 0x17 "9205212342Z".toUTF8.toList) ∧
    Survives Tests.DT (short 0x18 "00920521234200Z".toUTF8.toList)) :=
  (C47_times_conflict Tests.DT _ _ ⟨[92, 5, 21, 23, 42, 0]⟩ (if_pos rfl) (if_pos rfl) (by decide +kernel)
    (by decide +kernel) (by decide +kernel) (by
      intro b h1 h2
      simp only [Tests.DT] at h1 h2
      split at h1
      · subst b
        rw [if_neg (by decide +kernel)] at h2
        simp at h2
      · simp at h1)).2.2

/-- An object that a program can build and that is written but not read back: an INTEGER value under an OCTET
STRING header. -/
example : ¬ Wf Tests.D0 50 (.mk (Header.new .universal false 4 (.definite 1)) (.integer [7])) := fun h => by
  cases h with
  | leaf _ _ _ _ hw => exact absurd hw.2 (by decide)
example : toVec Tests.D0 (.mk (Header.new .universal false 4 (.definite 1)) (.integer [7])) = .ok [4, 1, 7] := rfl

end Verif
