import Verif.Lemmas.DerDenote
/-!
# Where the nodes of a returned object come from
-/
namespace Verif
open Outcome Spec

theorem framed_infix {n : Nat} {e c : Bytes} {h : Header} (H : Framed n e h c) :
    ∃ hb post, BerHeader hb h ∧ e = hb ++ c ++ post ∧
      ((h.length = .definite c.length ∧ post = []) ∨
        (h.length = .indefinite ∧ post.length = 2)) := by
  cases H with
  | definite hb c h H hl => exact ⟨hb, [], H, by simp, .inl ⟨hl, rfl⟩⟩
  | indefinite m hb es t h hn H hl hes ht =>
    refine ⟨hb, (es.flatten ++ t).drop ((es.flatten ++ t).length - 2), H, ?_, .inr ⟨hl, ?_⟩⟩
    · rw [List.append_assoc, List.take_append_drop]
    · obtain ⟨h', H', _⟩ := ht
      have := berHeader_nonempty H'
      rw [List.length_drop, List.length_append]
      omega

theorem framed_primitive {n : Nat} {e c : Bytes} {h : Header} (H : Framed n e h c)
    (hp : h.constructed = false) :
    ∃ hb, BerHeader hb h ∧ e = hb ++ c ∧ h.length = .definite c.length := by
  obtain ⟨hb, post, H', he, h1 | h1⟩ := framed_infix H
  · exact ⟨hb, H', by simpa [h1.2] using he, h1.1⟩
  · have := H'.indef_constructed h1.1
    rw [hp] at this
    simp at this

/-- A node below the root of a denotation is the denotation of an element inside the contents. -/
theorem denotes_node {D : Deps} {o' o : BerObject} (hn : Node o' o) :
    ∀ {d : Nat} {hd : Header} {c : Bytes}, Denotes D d hd c o.content → o' = o ∨
      ∃ pre e post c' d', c = pre ++ e ++ post ∧ Framed 50 e o'.header c' ∧ d' < d ∧
        Denotes D d' o'.header c' o'.content := by
  have mem : ∀ {items : List Item} {it : Item}, it ∈ items →
      ∃ pre post, items.flatMap Item.bytes = pre ++ it.bytes ++ post := by
    intro items it hit
    obtain ⟨l1, l2, rfl⟩ := List.append_of_mem hit
    exact ⟨l1.flatMap Item.bytes, l2.flatMap Item.bytes, by simp⟩
  have step : ∀ {items : List Item} {o1 : BerObject} {d : Nat},
      (∀ it ∈ items, Framed 50 it.bytes it.header it.body) →
      (∀ it ∈ items, Denotes D d it.header it.body it.value) →
      o1 ∈ items.map (fun it => BerObject.mk it.header it.value) →
      (∀ {d : Nat} {hd : Header} {c : Bytes}, Denotes D d hd c o1.content → o' = o1 ∨
        ∃ pre e post c' d', c = pre ++ e ++ post ∧ Framed 50 e o'.header c' ∧ d' < d ∧
          Denotes D d' o'.header c' o'.content) →
      ∃ pre e post c' d', items.flatMap Item.bytes = pre ++ e ++ post ∧ Framed 50 e o'.header c' ∧
        d' < d + 1 ∧ Denotes D d' o'.header c' o'.content := by
    intro items o1 d hF hD hm ih
    obtain ⟨it, hit, rfl⟩ := List.mem_map.1 hm
    obtain ⟨p, q, hpq⟩ := mem hit
    rcases ih (hD it hit) with rfl | ⟨pre, e, post, c', d', hb, hf, hlt, hden⟩
    · exact ⟨p, it.bytes, q, it.body, d, hpq, hF it hit, by omega, hD it hit⟩
    · obtain ⟨hb', post', _, he, _⟩ := framed_infix (hF it hit)
      refine ⟨p ++ hb' ++ pre, e, post ++ post' ++ q, c', d', ?_, hf, by omega, hden⟩
      rw [hpq, he, hb]
      simp
  induction hn with
  | self => intro d hd c _; exact .inl rfl
  | seq h l o1 hm _ ih =>
    intro d hd c hden
    right
    simp only [BerObject.content_mk] at hden
    generalize hx : Content.sequence l = x at hden
    cases hden with
    | leaf d h c x hL => subst hx; exact absurd hL (by simp [Leaf])
    | sequence d h items h1 h2 h3 hF hD =>
      simp only [Content.sequence.injEq] at hx
      subst hx
      exact step hF hD hm ih
    | set d h items h1 h2 h3 hF hD => simp at hx
  | set h l o1 hm _ ih =>
    intro d hd c hden
    right
    simp only [BerObject.content_mk] at hden
    generalize hx : Content.set l = x at hden
    cases hden with
    | leaf d h c x hL => subst hx; exact absurd hL (by simp [Leaf])
    | sequence d h items h1 h2 h3 hF hD => simp at hx
    | set d h items h1 h2 h3 hF hD =>
      simp only [Content.set.injEq] at hx
      subst hx
      exact step hF hD hm ih

/-! ## Exact descriptions -/

/-- `parse_ber_recursive` is exactly the denotation. -/
theorem parseBerRecursive_iff {D : Deps} {d : Nat} {i rem : Bytes} {o : BerObject} :
    parseBerRecursive D d i = .ok (rem, o) ↔
      ∃ e c, i = e ++ rem ∧ Framed 50 e o.header c ∧ Denotes D d o.header c o.content := by
  constructor
  · intro h
    unfold parseBerRecursive parseBerAnyR at h
    split at h
    · simp at h
    · obtain ⟨⟨r, a⟩, h1, h2⟩ := bind_eq_ok.1 h
      obtain ⟨o1, h3, h4⟩ := bind_eq_ok.1 h2
      simp only [ok.injEq, Prod.mk.injEq] at h4
      obtain ⟨rfl, rfl⟩ := h4
      rw [liftRes_eq_ok] at h3
      obtain ⟨e, rfl, hF⟩ := anyFromBer_framed.1 h1
      have hh := objectFromAny_header h3
      refine ⟨e, a.data, rfl, by rw [hh]; exact hF, ?_⟩
      rw [hh]
      refine (objectFromAny_iff D d a.header a.data o1.content ?_).1 ?_
      · intro L hL
        exact framed_definite_length hF L hL
      · rw [← hh, BerObject.eta]
        rw [hh]
        exact h3
  · rintro ⟨e, c, rfl, hF, hD⟩
    have hd : d ≠ 0 := by rintro rfl; cases hD
    unfold parseBerRecursive parseBerAnyR
    rw [if_neg hd, show anyFromBer (e ++ rem) = .ok (rem, ⟨o.header, c⟩) from
      anyFromBer_framed.2 ⟨e, rfl, hF⟩]
    simp only [ok_bind]
    rw [(objectFromAny_iff D d o.header c o.content (fun L hL => framed_definite_length hF L hL)).2 hD]
    simp [liftRes]

theorem getObjectContent_congr {d : Nat} {h h' : Header} (hl : h.length = h'.length)
    (hc : h.constructed = h'.constructed) (ht : h.tag = h'.tag) (i : Bytes) :
    getObjectContent d h i = getObjectContent d h' i := by
  have : skipContent d h i = skipContent d h' i := by
    cases d with
    | zero => simp [skipContent]
    | succ d =>
      unfold skipContent
      rw [hl, hc]
      simp only [ht]
  unfold getObjectContent
  rw [this, hl]

/-- `parse_ber_with_tag` reads the element under a universal tag of the same number. -/
theorem parseBerWithTag_iff {D : Deps} {tag : Nat} {i rem : Bytes} {o : BerObject} :
    parseBerWithTag D tag i = .ok (rem, o) ↔
      ∃ e c, i = e ++ rem ∧ Framed 50 e o.header c ∧ o.header.tag = tag ∧
        (∀ L, o.header.length = .definite L → L ≤ maxObjectSize) ∧
        Denotes D 50 (Header.new .universal o.header.constructed o.header.tag o.header.length) c
          o.content := by
  have key : ∀ (i1 : Bytes) (h : Header) (r : Bytes) (x : Content),
      berReadElementContentAs D i1 h.tag h.length h.constructed maxRecursion = .ok (r, x) ↔
        (∀ L, h.length = .definite L → L ≤ maxObjectSize) ∧
        ∃ c, getObjectContent 50 h i1 = .ok (r, c) ∧
          Denotes D 50 (Header.new .universal h.constructed h.tag h.length) c x := by
    intro i1 h r x
    have hgo : (getObjectContent maxRecursion (Header.new .universal h.constructed h.tag h.length)
        i1 >>? fun r => liftRes (objectFromAny D maxRecursion
          { header := Header.new .universal h.constructed h.tag h.length, data := r.2 }) >>? fun o =>
            (.ok (r.1, o.content) : IRes BerError Content)) = .ok (r, x) ↔
        ∃ c, getObjectContent 50 h i1 = .ok (r, c) ∧
          Denotes D 50 (Header.new .universal h.constructed h.tag h.length) c x := by
      rw [getObjectContent_congr (h := Header.new .universal h.constructed h.tag h.length) (h' := h)
        rfl rfl rfl]
      constructor
      · intro hh
        obtain ⟨⟨r', c⟩, h1, h2⟩ := bind_eq_ok.1 hh
        obtain ⟨o1, h3, h4⟩ := bind_eq_ok.1 h2
        simp only [ok.injEq, Prod.mk.injEq] at h4
        obtain ⟨rfl, rfl⟩ := h4
        rw [liftRes_eq_ok] at h3
        refine ⟨c, h1, (objectFromAny_iff D 50 _ c _ ?_).1 ?_⟩
        · intro L hL
          exact (getObjectContent_def_len (show h.length = .definite L from hL) h1).2
        · have hh := objectFromAny_header h3
          have : o1 = .mk (Header.new .universal h.constructed h.tag h.length) o1.content := by
            conv => lhs; rw [← BerObject.eta o1]
            rw [hh]
          rw [← this]
          exact h3
      · rintro ⟨c, h1, h2⟩
        rw [show getObjectContent maxRecursion h i1 = .ok (r, c) from h1]
        simp only [ok_bind]
        rw [show objectFromAny D maxRecursion
          { header := Header.new .universal h.constructed h.tag h.length, data := c } = _ from
          (objectFromAny_iff D 50 (Header.new .universal h.constructed h.tag h.length) c x (fun L hL =>
            (getObjectContent_def_len (show h.length = .definite L from hL) h1).2)).2 h2]
        simp [liftRes]
    unfold berReadElementContentAs
    cases hl : h.length with
    | definite L =>
      rw [hl] at hgo
      dsimp only
      by_cases hmax : maxObjectSize < L
      · rw [if_pos hmax]
        constructor
        · intro hh; simp at hh
        · rintro ⟨h1, _⟩; exact absurd (h1 L rfl) (by omega)
      · rw [if_neg hmax]
        by_cases hi : i1.length < L
        · rw [if_pos hi]
          constructor
          · intro hh; simp at hh
          · rintro ⟨_, c, h1, _⟩
            obtain ⟨rfl, h2⟩ := getObjectContent_def_len hl h1
            simp only [List.length_append] at hi
            omega
        · rw [if_neg hi, hgo]
          constructor
          · intro hh; exact ⟨fun L' h' => by simp at h'; omega, hh⟩
          · exact fun hh => hh.2
    | indefinite =>
      rw [hl] at hgo
      dsimp only
      rw [hgo]
      simp
  constructor
  · intro h
    unfold parseBerWithTag at h
    obtain ⟨⟨i1, hd⟩, h1, h2⟩ := bind_eq_ok.1 h
    obtain ⟨_, h3, h4⟩ := bind_eq_ok.1 h2
    obtain ⟨⟨r, x⟩, h5, h6⟩ := bind_eq_ok.1 h4
    simp only [ok.injEq, Prod.mk.injEq] at h6
    obtain ⟨rfl, rfl⟩ := h6
    obtain ⟨hmax, c, h7, h8⟩ := (key _ _ _ _).1 h5
    have ht : hd.tag = tag := by
      rw [liftRes_eq_ok] at h3
      unfold Header.assertTag at h3
      split at h3
      · assumption
      · simp at h3
    have hany : anyFromBer i = .ok (r, ⟨hd, c⟩) := by
      unfold anyFromBer
      rw [h1]
      simp only [ok_bind]
      rw [show getObjectContent maxRecursion hd i1 = .ok (r, c) from h7]
      rfl
    obtain ⟨e, rfl, hF⟩ := anyFromBer_framed.1 hany
    exact ⟨e, c, rfl, hF, ht, hmax, h8⟩
  · rintro ⟨e, c, rfl, hF, ht, hmax, hD⟩
    have hany : anyFromBer (e ++ rem) = .ok (rem, ⟨o.header, c⟩) :=
      anyFromBer_framed.2 ⟨e, rfl, hF⟩
    obtain ⟨i1, h1, h2⟩ := anyFromBer_ok hany
    unfold parseBerWithTag
    rw [h1]
    simp only [ok_bind, Header.assertTag]
    rw [if_pos ht]
    simp only [liftRes, mapErr_ok, ok_bind]
    rw [(key i1 o.header rem o.content).2 ⟨hmax, c, h2, hD⟩]
    simp

/-- Exact description of `parse_der_with_tag`. -/
theorem parseDerWithTag_iff {D : Deps} {tag : Nat} {i rem : Bytes} {o : BerObject} :
    parseDerWithTag D tag i = .ok (rem, o) ↔
      ∃ hb c, i = hb ++ c ++ rem ∧ DerHeader hb o.header ∧ o.header.length = .definite c.length ∧
        o.header.tag = tag ∧ DerRules tag c ∧ (tag = 3 ∨ c.length ≤ maxObjectSize) ∧
        Denotes D 50 (Header.new .universal o.header.constructed o.header.tag o.header.length) c
          o.content := by
  constructor
  · intro h
    unfold parseDerWithTag at h
    obtain ⟨⟨i1, hd⟩, h1, h2⟩ := bind_eq_ok.1 h
    obtain ⟨_, h3, h4⟩ := bind_eq_ok.1 h2
    obtain ⟨⟨r, x⟩, h5, h6⟩ := bind_eq_ok.1 h4
    simp only [ok.injEq, Prod.mk.injEq] at h6
    obtain ⟨rfl, rfl⟩ := h6
    have ht : hd.tag = tag := by
      rw [liftRes_eq_ok] at h3
      unfold Header.assertTag at h3
      split at h3
      · assumption
      · simp at h3
    obtain ⟨hb, rfl, H⟩ := headerFromDer_iff.1 h1
    simp only at h5
    obtain ⟨l, pre, e1, e2, e3, _⟩ := derReadElementContentAs_ok h5
    subst e2
    subst e3
    rw [e1] at h5
    obtain ⟨g1, g2, g3⟩ := (derReadElementContentAs_iff (d := 49)).1 h5
    rw [← e1] at g3
    exact ⟨hb, pre, by simp, H, e1, ht, by rw [← ht]; exact g1, by rw [← ht]; exact g2, g3⟩
  · rintro ⟨hb, c, rfl, H, hl, ht, hR, hmax, hD⟩
    unfold parseDerWithTag
    rw [List.append_assoc, derHeader_reads H]
    simp only [ok_bind, Header.assertTag]
    rw [if_pos ht]
    simp only [liftRes, mapErr_ok, ok_bind]
    rw [hl] at hD ⊢
    rw [show derReadElementContentAs D (c ++ rem) o.header.tag (.definite c.length)
      o.header.constructed maxRecursion = _ from
      (derReadElementContentAs_iff (d := 49)).2
        ⟨by rw [ht]; exact hR, by rw [ht]; exact hmax, hD⟩]
    simp

/-- What `parse_der_recursive` returns, without assumption on depth or time parsers. -/
theorem parseDerRecursive_sound {D : Deps} {d : Nat} {i rem : Bytes} {o : BerObject}
    (h : parseDerRecursive D d i = .ok (rem, o)) :
      ∃ hb c, i = hb ++ c ++ rem ∧ DerHeader hb o.header ∧ o.header.length = .definite c.length ∧
        c.length ≤ maxObjectSize ∧
        (o.content = .unknown ⟨o.header, c⟩ ∨
          (o.header.cls = .universal ∧ DerRules o.header.tag c ∧
            ∃ d', d' ≤ d + 1 ∧ Denotes D d'
              (Header.new .universal o.header.constructed o.header.tag o.header.length) c
              o.content)) := by
  unfold parseDerRecursive at h
  obtain ⟨⟨i1, hd⟩, h1, h2⟩ := bind_eq_ok.1 h
  obtain ⟨hb, rfl, H⟩ := headerFromDer_iff.1 h1
  simp only at h2
  cases hl : hd.length with
  | indefinite => exact absurd hl H.definite
  | definite L =>
    rw [hl] at h2
    simp only at h2
    have hunk : ∀ {i2 : Bytes} {o : BerObject}, derUnknown i1 hd d = .ok (i2, o) →
        L ≤ maxObjectSize →
        ∃ hb' c, hb ++ i1 = hb' ++ c ++ i2 ∧ DerHeader hb' o.header ∧
          o.header.length = .definite c.length ∧ c.length ≤ maxObjectSize ∧
          o.content = .unknown ⟨o.header, c⟩ := by
      intro i2 o h2 hmax
      unfold derUnknown at h2
      obtain ⟨⟨i2, c⟩, h3, h4⟩ := bind_eq_ok.1 h2
      simp only [ok.injEq, Prod.mk.injEq] at h4
      obtain ⟨rfl, rfl⟩ := h4
      obtain ⟨rfl, hlen⟩ := getObjectContent_def_len hl h3
      exact ⟨hb, c, by simp, H, by rw [← hlen] at hl; exact hl, by omega, rfl⟩
    split at h2
    · simp at h2
    · rename_i hmax
      unfold derReadElementContentRecursive at h2
      split at h2
      · obtain ⟨hb', c, g1, g2, g3, g4, g5⟩ := hunk h2 (by omega)
        exact ⟨hb', c, g1, g2, g3, g4, .inl g5⟩
      · rename_i hcls
        split at h2
        · rename_i r h3
          obtain ⟨i2, x⟩ := r
          simp only [ok.injEq, Prod.mk.injEq] at h2
          obtain ⟨rfl, rfl⟩ := h2
          obtain ⟨l, pre, e1, rfl, e3, hor⟩ := derReadElementContentAs_ok h3
          rw [hl] at e1
          simp only [Length.definite.injEq] at e1
          subst e1
          subst e3
          rw [hl] at h3
          refine ⟨hb, pre, by simp, H, hl, by omega, .inr ⟨by simpa using hcls, ?_⟩⟩
          simp only [BerObject.header_mk, hl, BerObject.content_mk]
          cases d with
          | succ d =>
            obtain ⟨g1, g2, g3⟩ := derReadElementContentAs_iff.1 h3
            exact ⟨g1, d + 1, by omega, g3⟩
          | zero =>
            have h3' : derReadElementContentAs D (pre ++ i2) hd.tag (.definite pre.length)
                hd.constructed (0 + 1) = .ok (i2, x) := by
              rw [derReadElementContentAs_definite _ _ _ _ _ _ _ rfl] at h3 ⊢
              split at h3
              · rename_i ht; rw [if_pos ht]; exact h3
              · obtain ⟨_, _, h4⟩ := bind_eq_ok.1 h3
                simp [objectFromAny, liftRes] at h4
            obtain ⟨g1, g2, g3⟩ := derReadElementContentAs_iff.1 h3'
            exact ⟨g1, 1, by omega, g3⟩
        · obtain ⟨hb', c, g1, g2, g3, g4, g5⟩ := hunk h2 (by omega)
          exact ⟨hb', c, g1, g2, g3, g4, .inl g5⟩
        · simp at h2
        · simp at h2
        · simp at h2

/-! ## All object parsers -/

/-- `o` is returned on `i`, with remainder `rem`, by parse_ber, parse_der (or their recursive
versions with any depth), parse_ber_with_tag or parse_der_with_tag with any tag. -/
def Returned (D : Deps) (i rem : Bytes) (o : BerObject) : Prop :=
  (∃ d, parseBerRecursive D d i = .ok (rem, o)) ∨ (∃ d, parseDerRecursive D d i = .ok (rem, o)) ∨
    (∃ tag, parseBerWithTag D tag i = .ok (rem, o)) ∨ (∃ tag, parseDerWithTag D tag i = .ok (rem, o))

/-- The element of a returned object. -/
theorem returned_root {D : Deps} {i rem : Bytes} {o : BerObject} (hr : Returned D i rem o) :
    ∃ e c, i = e ++ rem ∧ Framed 50 e o.header c ∧
      (o.content = .unknown ⟨o.header, c⟩ ∨
        ∃ hd d, hd.constructed = o.header.constructed ∧ hd.tag = o.header.tag ∧
          hd.length = o.header.length ∧ Denotes D d hd c o.content) := by
  rcases hr with ⟨d, h⟩ | ⟨d, h⟩ | ⟨tag, h⟩ | ⟨tag, h⟩
  · obtain ⟨e, c, h1, h2, h3⟩ := parseBerRecursive_iff.1 h
    exact ⟨e, c, h1, h2, .inr ⟨_, d, rfl, rfl, rfl, h3⟩⟩
  · obtain ⟨hb, c, h1, h2, h3, _, h4⟩ := parseDerRecursive_sound h
    refine ⟨hb ++ c, c, h1, .definite _ _ _ h2.toBerHeader h3, ?_⟩
    rcases h4 with h4 | ⟨_, _, d', _, h4⟩
    · exact .inl h4
    · exact .inr ⟨Header.new .universal o.header.constructed o.header.tag o.header.length, d', rfl,
        rfl, rfl, h4⟩
  · obtain ⟨e, c, h1, h2, _, _, h3⟩ := parseBerWithTag_iff.1 h
    exact ⟨e, c, h1, h2, .inr
      ⟨Header.new .universal o.header.constructed o.header.tag o.header.length, _, rfl, rfl, rfl, h3⟩⟩
  · obtain ⟨hb, c, h1, h2, h3, _, _, _, h4⟩ := parseDerWithTag_iff.1 h
    exact ⟨hb ++ c, c, h1, .definite _ _ _ h2.toBerHeader h3, .inr
      ⟨Header.new .universal o.header.constructed o.header.tag o.header.length, _, rfl, rfl, rfl, h4⟩⟩

/-- Every node of a returned object comes from one element inside the consumed bytes; its header
is the header of that element, its content is denoted by the contents octets (read under a
universal tag of the same number if it is the root). -/
theorem returned_node {D : Deps} {i rem : Bytes} {o o' : BerObject} (hr : Returned D i rem o)
    (hn : Node o' o) :
    ∃ pre e post c, i = pre ++ e ++ post ++ rem ∧ Framed 50 e o'.header c ∧
      (o'.content = .unknown ⟨o'.header, c⟩ ∨
        ∃ hd d, hd.constructed = o'.header.constructed ∧ hd.tag = o'.header.tag ∧
          hd.length = o'.header.length ∧ Denotes D d hd c o'.content) := by
  obtain ⟨e, c, rfl, hF, hc⟩ := returned_root hr
  rcases hc with hc | ⟨hd, d, e1, e2, e3, hD⟩
  · have : o' = o := by
      cases hn with
      | self => rfl
      | seq h l o1 _ _ => simp at hc
      | set h l o1 _ _ => simp at hc
    subst this
    exact ⟨[], e, [], c, by simp, hF, .inl hc⟩
  · rcases denotes_node hn hD with rfl | ⟨pre, e', post, c', d', hb, hF', _, hD'⟩
    · exact ⟨[], e, [], c, by simp, hF, .inr ⟨hd, d, e1, e2, e3, hD⟩⟩
    · obtain ⟨hb', post', _, he, _⟩ := framed_infix hF
      refine ⟨hb' ++ pre, e', post ++ post', c', ?_, hF', .inr ⟨_, d', rfl, rfl, rfl, hD'⟩⟩
      rw [he, hb]
      simp

end Verif
