import Verif.Lemmas.Text
import Verif.Lemmas.Element
/-!
# Definite elements, nodes of parsed trees, DER against BER
-/
namespace Verif
open Outcome Spec

/-! ## Elements of definite length -/

theorem anyFromBer_definite {hb c : Bytes} {h : Header} (H : BerHeader hb h)
    (hl : h.length = .definite c.length) (rest : Bytes) :
    anyFromBer (hb ++ c ++ rest) = .ok (rest, ⟨h, c⟩) := by
  unfold anyFromBer
  rw [List.append_assoc, berHeader_reads H]
  simp only [ok_bind]
  rw [show maxRecursion = 49 + 1 from rfl, getObjectContent_definite hl c rest rfl]
  rfl

theorem parseBerRecursive_definite (D : Deps) (d : Nat) {hb c : Bytes} {h : Header}
    (H : BerHeader hb h) (hl : h.length = .definite c.length) (rest : Bytes) :
    parseBerRecursive D (d + 1) (hb ++ c ++ rest) =
      (liftRes (objectFromAny D (d + 1) ⟨h, c⟩) >>? fun o => .ok (rest, o)) := by
  unfold parseBerRecursive parseBerAnyR
  rw [if_neg (by omega), anyFromBer_definite H hl]
  rfl

theorem parseBer_definite (D : Deps) {hb c : Bytes} {h : Header}
    (H : BerHeader hb h) (hl : h.length = .definite c.length) (rest : Bytes) :
    parseBer D (hb ++ c ++ rest) =
      (liftRes (objectFromAny D 50 ⟨h, c⟩) >>? fun o => .ok (rest, o)) :=
  parseBerRecursive_definite D 49 H hl rest

theorem parseBerWithTag_definite (D : Deps) (tag : Nat) {hb c : Bytes} {h : Header}
    (H : BerHeader hb h) (hl : h.length = .definite c.length) (rest : Bytes) :
    parseBerWithTag D tag (hb ++ c ++ rest) =
      if h.tag ≠ tag then .err (.error (.unexpectedTag (some tag) h.tag))
      else if maxObjectSize < c.length then .err (.error .invalidLength)
      else (liftRes (objectFromAny D 50 ⟨Header.new .universal h.constructed h.tag h.length, c⟩) >>?
        fun o => .ok (rest, .mk h o.content)) := by
  unfold parseBerWithTag
  rw [List.append_assoc, berHeader_reads H]
  simp only [ok_bind, Header.assertTag]
  by_cases ht : h.tag = tag
  · simp only [ht, ne_eq, not_true_eq_false, if_false, if_true, liftRes, mapErr_ok, ok_bind, hl]
    rw [berReadElementContentAs_definite D _ _ _ _ c rest rfl]
    split
    · rfl
    · show (liftRes _ >>? _) >>? _ = liftRes _ >>? _
      rw [bind_assoc']
      rfl
  · simp [ht, liftRes]

/-! ## What the conversion depends on -/

theorem universalContent_new (D : Deps) (conv : Any → Res BerObject) (h h' : Header) (c : Bytes)
    (ht : h.tag = h'.tag) (hc : h.constructed = h'.constructed) (hl : h.length = h'.length)
    (hk : uKind h.tag ≠ .other) :
    universalContent D conv ⟨h, c⟩ = universalContent D conv ⟨h', c⟩ := by
  unfold universalContent
  simp only [← ht]
  cases hu : uKind h.tag <;>
    simp only [hc, hl, Any.bool, Any.enumerated, Header.assertPrimitive,
      Header.assertConstructed, strFromAny]
  exact absurd hu hk

theorem objectFromAny_new (D : Deps) (d : Nat) (h : Header) (c : Bytes) (hcls : h.cls = .universal)
    (hk : uKind h.tag ≠ .other) :
    objectFromAny D d ⟨h, c⟩ =
      (objectFromAny D d ⟨Header.new .universal h.constructed h.tag h.length, c⟩).map
        (fun o => .mk h o.content) := by
  cases d with
  | zero => rfl
  | succ d =>
    simp only [objectFromAny, hcls, Header.new, ne_eq, not_true_eq_false, if_false]
    rw [universalContent_new D _ h (Header.new .universal h.constructed h.tag h.length) c rfl rfl rfl hk]
    simp only [Header.new]
    cases universalContent D (objectFromAny D d) _ <;> rfl

theorem objectFromAny_other (D : Deps) (d : Nat) (h : Header) (c : Bytes)
    (hk : h.cls ≠ .universal ∨ uKind h.tag = .other) :
    objectFromAny D (d + 1) ⟨h, c⟩ = .ok (.mk h (.unknown ⟨h, c⟩)) := by
  unfold objectFromAny
  by_cases hcls : h.cls = .universal
  · have hk : uKind h.tag = .other := by simpa [hcls] using hk
    simp [hcls, universalContent, hk]
  · simp [hcls]

theorem objectFromAny_header {D : Deps} {d : Nat} {a : Any} {o : BerObject}
    (h : objectFromAny D d a = .ok o) : o.header = a.header := by
  cases d with
  | zero => simp [objectFromAny] at h
  | succ d =>
    simp only [objectFromAny] at h
    split at h
    · simp only [ok.injEq] at h; rw [← h]; rfl
    · obtain ⟨c, _, rfl⟩ := map_eq_ok.1 h; rfl

/-! ## Nodes -/

theorem collectItems_mem {conv : Any → Res BerObject} {fuel : Nat} {data : Bytes}
    {os : List BerObject} (h : collectItems conv fuel data = .ok os) {o : BerObject} (ho : o ∈ os) :
    ∃ pre e post a, data = pre ++ e ++ post ∧ anyFromBer e = .ok ([], a) ∧ conv a = .ok o := by
  induction fuel generalizing data os with
  | zero => simp [collectItems] at h
  | succ fuel ih =>
    unfold collectItems at h
    cases data with
    | nil => simp at h; subst h; simp at ho
    | cons x xs =>
      simp only at h
      obtain ⟨⟨rem, a⟩, h1, h2⟩ := bind_eq_ok.1 h
      obtain ⟨o1, h3, h4⟩ := bind_eq_ok.1 h2
      obtain ⟨os', h5, h6⟩ := bind_eq_ok.1 h4
      simp at h6 h1
      obtain ⟨e, he, hr⟩ := local_anyFromBer _ _ _ h1
      subst h6
      rcases List.mem_cons.1 ho with rfl | ho
      · exact ⟨[], e, rem, a, by simpa using he, by simpa using hr [], h3⟩
      · obtain ⟨pre, e', post, a', h7, h8, h9⟩ := ih h5 ho
        exact ⟨e ++ pre, e', post, a', by rw [he, show rem = pre ++ e' ++ post from h7]; simp, h8, h9⟩

theorem anyFromBer_data_infix {i rem : Bytes} {a : Any} (h : anyFromBer i = .ok (rem, a)) :
    ∃ hb post, BerHeader hb a.header ∧ i = hb ++ a.data ++ post ++ rem := by
  obtain ⟨i1, h1, h2⟩ := anyFromBer_ok h
  obtain ⟨hb, rfl, H⟩ := headerFromBer_iff.1 h1
  obtain ⟨pre, b, rfl, _, hc⟩ := getObjectContent_ok h2
  rw [hc]
  unfold contentOf
  split
  · exact ⟨hb, pre.drop (pre.length - 2), H, by simp⟩
  · exact ⟨hb, [], H, by simp⟩

/-- Children of a converted object are converted sub-slices of its content. -/
theorem objectFromAny_child {D : Deps} {d : Nat} {a : Any} {h : Header} {l : List BerObject}
    (hok : objectFromAny D d a = .ok (.mk h (.sequence l)) ∨
      objectFromAny D d a = .ok (.mk h (.set l))) {o : BerObject} (ho : o ∈ l) :
    ∃ d', d = d' + 1 ∧ ∃ pre e post a', a.data = pre ++ e ++ post ∧ anyFromBer e = .ok ([], a') ∧
      objectFromAny D d' a' = .ok o := by
  cases d with
  | zero => simp [objectFromAny] at hok
  | succ d =>
    refine ⟨d, rfl, ?_⟩
    simp only [objectFromAny] at hok
    by_cases hcls : a.header.cls = .universal
    · simp only [hcls, ne_eq, not_true_eq_false, if_false] at hok
      have key : ∀ c, (c = Content.sequence l ∨ c = Content.set l) →
          universalContent D (objectFromAny D d) a = .ok c →
          collectItems (objectFromAny D d) (a.data.length + 1) a.data = .ok l := by
        intro c hc hu
        unfold universalContent at hu
        split at hu
        · split at hu
          · simp at hu
          · split at hu <;> simp at hu; subst hu; simp at hc
        · split at hu <;> (try split at hu) <;> (try split at hu) <;> simp at hu; subst hu; simp at hc
        · obtain ⟨_, _, rfl⟩ := map_eq_ok.1 hu; simp at hc
        · simp at hu; subst hu; simp at hc
        · obtain ⟨_, _, rfl⟩ := map_eq_ok.1 hu; simp at hc
        · obtain ⟨_, _, rfl⟩ := map_eq_ok.1 hu; simp at hc
        · unfold strFromAny at hu
          split at hu <;> (try split at hu) <;> (try split at hu) <;> simp at hu; subst hu; simp at hc
        · simp at hu; subst hu; simp at hc
        · simp at hu; subst hu; simp at hc
        · simp at hu; subst hu; simp at hc
        · simp at hu; subst hu; simp at hc
        · simp at hu; subst hu; simp at hc
        · obtain ⟨_, _, hu⟩ := bind_eq_ok.1 hu
          obtain ⟨l', hl', rfl⟩ := map_eq_ok.1 hu
          simp at hc; subst hc; exact hl'
        · obtain ⟨_, _, hu⟩ := bind_eq_ok.1 hu
          obtain ⟨l', hl', rfl⟩ := map_eq_ok.1 hu
          simp at hc; subst hc; exact hl'
        · obtain ⟨_, _, rfl⟩ := map_eq_ok.1 hu; simp at hc
        · split at hu <;> simp at hu; subst hu; simp at hc
        · simp at hu; subst hu; simp at hc
      rcases hok with hok | hok <;> obtain ⟨c, hu, hc⟩ := map_eq_ok.1 hok <;>
        simp only [BerObject.mk.injEq] at hc
      · exact collectItems_mem (key c (.inl hc.2) hu) ho
      · exact collectItems_mem (key c (.inr hc.2) hu) ho
    · simp [hcls] at hok

/-- Every node of a converted object is itself converted from a sub-slice. -/
theorem objectFromAny_node {D : Deps} {o' o : BerObject} (hn : Node o' o) :
    ∀ {d : Nat} {a : Any}, objectFromAny D d a = .ok o → o' = o ∨
      ∃ d' pre e post a', d' < d ∧ a.data = pre ++ e ++ post ∧ anyFromBer e = .ok ([], a') ∧
        objectFromAny D d' a' = .ok o' := by
  have step : ∀ {d : Nat} {a : Any} {h : Header} {l : List BerObject} {o : BerObject},
      (objectFromAny D d a = .ok (.mk h (.sequence l)) ∨
        objectFromAny D d a = .ok (.mk h (.set l))) → o ∈ l →
      (∀ {d : Nat} {a : Any}, objectFromAny D d a = .ok o → o' = o ∨
        ∃ d' pre e post a', d' < d ∧ a.data = pre ++ e ++ post ∧ anyFromBer e = .ok ([], a') ∧
          objectFromAny D d' a' = .ok o') →
      ∃ d' pre e post a', d' < d ∧ a.data = pre ++ e ++ post ∧ anyFromBer e = .ok ([], a') ∧
        objectFromAny D d' a' = .ok o' := by
    intro d a h l o hok ho ih
    obtain ⟨d1, rfl, pre, e, post, a1, h1, h2, h3⟩ := objectFromAny_child hok ho
    rcases ih h3 with rfl | ⟨d2, pre2, e2, post2, a2, h4, h5, h6, h7⟩
    · exact ⟨d1, pre, e, post, a1, by omega, h1, h2, h3⟩
    · obtain ⟨hb, post1, _, h8⟩ := anyFromBer_data_infix h2
      exact ⟨d2, pre ++ (hb ++ pre2), e2, post2 ++ post1 ++ post, a2, by omega, by
        rw [h1, h8, h5]; simp, h6, h7⟩
  induction hn with
  | self => intro d a _; exact .inl rfl
  | seq h l o ho _ ih => intro d a hok; exact .inr (step (.inl hok) ho ih)
  | set h l o ho _ ih => intro d a hok; exact .inr (step (.inr hok) ho ih)

theorem parseBerRecursive_ok {D : Deps} {d : Nat} {i rem : Bytes} {o : BerObject} :
    parseBerRecursive D d i = .ok (rem, o) ↔
      ∃ a, anyFromBer i = .ok (rem, a) ∧ objectFromAny D d a = .ok o := by
  unfold parseBerRecursive parseBerAnyR
  constructor
  · intro h
    split at h
    · simp at h
    · obtain ⟨⟨i1, a⟩, h1, h2⟩ := bind_eq_ok.1 h
      obtain ⟨o1, h3, h4⟩ := bind_eq_ok.1 h2
      simp at h4
      obtain ⟨rfl, rfl⟩ := h4
      exact ⟨a, h1, by simpa [liftRes] using h3⟩
  · rintro ⟨a, h1, h2⟩
    cases d with
    | zero => simp [objectFromAny] at h2
    | succ d => rw [if_neg (by omega), h1]; simp [h2, liftRes]

/-! ## DER results are BER results -/

theorem unusedBitsZero_dvd (n last : Nat) : unusedBitsZero n last = true ↔ last % 2 ^ n = 0 := by
  induction n generalizing last with
  | zero => simp [unusedBitsZero, Nat.mod_one]
  | succ n ih =>
    unfold unusedBitsZero
    have hm : last % 2 ^ (n + 1) = last % 2 + 2 * (last / 2 % 2 ^ n) := by
      rw [Nat.pow_succ, Nat.mul_comm, Nat.mod_mul]
    split
    · simp only [Bool.false_eq_true, false_iff]; omega
    · rw [ih, hm]; omega

theorem objectFromAny_bitString (D : Deps) (d : Nat) (h : Header) (u : UInt8) (data : Bytes)
    (hcls : h.cls = .universal) (ht : h.tag = Tag.bitString) (hc : h.constructed = false) :
    objectFromAny D (d + 1) ⟨h, u :: data⟩ = .ok (.mk h (.bitString u data)) := by
  simp [objectFromAny, hcls, universalContent, ht, uKind, Tag.bitString, hc]

/-- Content read by the DER functions is what BER conversion gives (`Header.new` as there). -/
theorem derReadElementContentAs_ber {D : Deps} {tag l : Nat} {c : Bool} {d : Nat}
    {i rem : Bytes} {x : Content}
    (h : derReadElementContentAs D i tag (.definite l) c d = .ok (rem, x)) :
    ∃ data, i = data ++ rem ∧ data.length = l ∧
      ∃ o, objectFromAny D (max d 1) ⟨Header.new .universal c tag (.definite l), data⟩ = .ok o ∧
        o.content = x := by
  obtain ⟨l', pre, hl', rfl, hlen, hr⟩ := derReadElementContentAs_ok h
  simp only [Length.definite.injEq] at hl'
  subst hl'
  rw [derReadElementContentAs_definite _ _ _ _ _ _ _ hlen] at h
  refine ⟨pre, rfl, hlen, ?_⟩
  split at h
  · rename_i ht
    split at h
    · simp at h
    · rename_i hc
      obtain ⟨u, data, h1, _, _, h2, _⟩ := derReadContentBitstring_ok h
      have hp : pre = u :: data := List.append_cancel_right h1
      subst hp
      obtain ⟨k, hk⟩ : ∃ k, max d 1 = k + 1 := ⟨max d 1 - 1, by omega⟩
      rw [hk, objectFromAny_bitString D k _ u data rfl ht (by simpa [Header.new] using hc)]
      exact ⟨_, rfl, by rw [h2]; rfl⟩
  · obtain ⟨_, _, h⟩ := bind_eq_ok.1 h
    split at h
    · simp at h
    · obtain ⟨o, h1, h2⟩ := bind_eq_ok.1 h
      simp at h2
      have h1 : objectFromAny D d ⟨Header.new .universal c tag (.definite l), pre⟩ = .ok o := by
        simpa [liftRes] using h1
      refine ⟨o, ?_, h2⟩
      cases d with
      | zero => simp [objectFromAny] at h1
      | succ d => rw [show max (d + 1) 1 = d + 1 by omega]; exact h1

theorem berHeader_of_der {hb : Bytes} {h : Header} (H : DerHeader hb h) : BerHeader hb h := H.1

theorem derHeader_reads {hb : Bytes} {h : Header} (H : DerHeader hb h) :
    Reads headerFromDer hb h := fun _ => headerFromDer_iff.2 ⟨hb, rfl, H⟩

theorem parseDerWithTag_definite (D : Deps) (tag : Nat) {hb c : Bytes} {h : Header}
    (H : DerHeader hb h) (rest : Bytes) :
    parseDerWithTag D tag (hb ++ c ++ rest) =
      if h.tag ≠ tag then .err (.error (.unexpectedTag (some tag) h.tag))
      else derReadElementContentAs D (c ++ rest) h.tag h.length h.constructed maxRecursion >>?
        fun s => .ok (s.1, .mk h s.2) := by
  unfold parseDerWithTag
  rw [List.append_assoc, derHeader_reads H]
  simp only [ok_bind, Header.assertTag]
  by_cases ht : h.tag = tag
  · simp [ht, liftRes]
  · simp [ht, liftRes]

/-- A success of `parse_ber_with_tag` is a conversion of the content. -/
theorem parseBerWithTag_conv {D : Deps} {t : Nat} {i rem : Bytes} {o : BerObject}
    (h : parseBerWithTag D t i = .ok (rem, o)) :
    ∃ hb i1 c o', BerHeader hb o.header ∧ i = hb ++ i1 ∧ o.header.tag = t ∧
      getObjectContent maxRecursion (Header.new .universal o.header.constructed t o.header.length)
        i1 = .ok (rem, c) ∧
      objectFromAny D 50 ⟨Header.new .universal o.header.constructed t o.header.length, c⟩ = .ok o' ∧
      o.content = o'.content ∧ (∀ L, o.header.length = .definite L → L ≤ maxObjectSize) := by
  unfold parseBerWithTag at h
  obtain ⟨⟨i1, hd⟩, h1, h2⟩ := bind_eq_ok.1 h
  obtain ⟨_, h3, h4⟩ := bind_eq_ok.1 h2
  obtain ⟨⟨i2, x⟩, h5, h6⟩ := bind_eq_ok.1 h4
  simp at h6
  obtain ⟨rfl, rfl⟩ := h6
  obtain ⟨hb, rfl, H⟩ := headerFromBer_iff.1 h1
  have ht : hd.tag = t := by
    simp only [liftRes_eq_ok, Header.assertTag] at h3
    split at h3
    · assumption
    · simp at h3
  simp only at h5
  subst ht
  have key : readContentGo D hd.tag hd.length hd.constructed maxRecursion i1 = .ok (i2, x) ∧
      (∀ L, hd.length = .definite L → L ≤ maxObjectSize) := by
    rw [berReadElementContentAs_eq] at h5
    split at h5
    · rename_i l hl
      split at h5
      · simp at h5
      · split at h5
        · simp at h5
        · exact ⟨h5, fun L hL => by rw [hl] at hL; simp at hL; omega⟩
    · rename_i hl
      exact ⟨h5, fun L hL => by rw [hl] at hL; simp at hL⟩
  obtain ⟨h5, hmax⟩ := key
  unfold readContentGo at h5
  obtain ⟨⟨i3, c⟩, h7, h8⟩ := bind_eq_ok.1 h5
  obtain ⟨o', h9, h10⟩ := bind_eq_ok.1 h8
  simp at h10
  obtain ⟨rfl, rfl⟩ := h10
  exact ⟨hb, i1, c, o', H, rfl, rfl, h7, liftRes_eq_ok.1 h9, rfl, hmax⟩

end Verif
