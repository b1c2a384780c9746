import Verif.Props.Serialize
/-!
# Property C92: exact output of the other serialization functions
-/
namespace Verif
open Outcome Spec

/-- The function called last in all of them: header, then contents. -/
theorem header_then {h : Header} {v e : Bytes} :
    (encodeHeader h >>? fun vh => (.ok (vh ++ v) : Outcome Empty Bytes)) = .ok e ↔
      ∃ b, e = b :: (encodeLength h.length ++ v) ∧ IdentOctets [b] h.cls h.constructed h.tag := by
  constructor
  · intro H
    obtain ⟨vh, h1, h2⟩ := bind_eq_ok.1 H
    obtain ⟨ht, rfl⟩ := encodeHeader_ok.1 h1
    simp only [ok.injEq] at h2
    exact ⟨_, by rw [← h2]; rfl, identOctet_iff.2 ⟨ht, rfl⟩⟩
  · rintro ⟨b, rfl, h1⟩
    obtain ⟨ht, rfl⟩ := identOctet_iff.1 h1
    rw [encodeHeader_ok.2 ⟨ht, rfl⟩]
    rfl

theorem raw_iff {D : Deps} {h : Header} {c : Content} {e : Bytes} :
    encodeObjectRaw D h c = .ok e ↔ ∃ v b, encodeContent D c = .ok v ∧
      e = b :: (encodeLength h.length ++ v) ∧ IdentOctets [b] h.cls h.constructed h.tag := by
  unfold encodeObjectRaw
  constructor
  · intro H
    obtain ⟨vh, h1, h2⟩ := bind_eq_ok.1 H
    obtain ⟨v, h3, h4⟩ := bind_eq_ok.1 h2
    obtain ⟨b, h5, h6⟩ := (header_then (h := h) (v := v) (e := e)).1 (by rw [h1]; exact h4)
    exact ⟨v, b, h3, h5, h6⟩
  · rintro ⟨v, b, h1, h2⟩
    have := (header_then (h := h) (v := v) (e := e)).2 ⟨b, h2⟩
    obtain ⟨vh, h3, h4⟩ := bind_eq_ok.1 this
    rw [h3, ok_bind, h1]
    exact h4

/-- C92: `ber_encode_object_raw` with a definite length in the header writes that length in the shortest form,
whether it is right or not. -/
theorem C92_raw_definite (D : Deps) (h : Header) (c : Content) (n : Nat) (e : Bytes) (hl : h.length = .definite n)
    (hn : n < 2 ^ 64) (he : e.length < 2 ^ 64) :
    encodeObjectRaw D h c = .ok e ↔ ∃ b len v, e = b :: (len ++ v) ∧
      IdentOctets [b] h.cls h.constructed h.tag ∧ MinLen len n ∧ EncodesC D c v := by
  rw [raw_iff, hl]
  constructor
  · rintro ⟨v, b, h1, rfl, h2⟩
    have hv : v.length < 2 ^ 64 := by simp only [List.length_cons, List.length_append] at he; omega
    exact ⟨b, _, v, rfl, h2, (minLen_iff (by rw [← pow64]; exact hn)).2 rfl, (encodeContent_iff D c v hv).1 h1⟩
  · rintro ⟨b, len, v, rfl, h1, h2, h3⟩
    have hv : v.length < 2 ^ 64 := by simp only [List.length_cons, List.length_append] at he; omega
    exact ⟨v, b, (encodeContent_iff D c v hv).2 h3, by rw [(minLen_iff (by rw [← pow64]; exact hn)).1 h2], h1⟩

/-- A header that announces five octets where one is written. -/
example := (C92_raw_definite Tests.D0 (Header.new .universal false 2 (.definite 5)) (.integer [0x01]) 5 _ rfl (by decide)
  (by decide : [0x02, 0x05, 0x01].length < 2 ^ 64)).1 rfl

/-- C92: with the indefinite length the octet `80` is written, and no end-of-contents octets. -/
theorem C92_raw_indefinite (D : Deps) (h : Header) (c : Content) (e : Bytes) (hl : h.length = .indefinite)
    (he : e.length < 2 ^ 64) :
    encodeObjectRaw D h c = .ok e ↔ ∃ b v, e = b :: 0x80 :: v ∧
      IdentOctets [b] h.cls h.constructed h.tag ∧ EncodesC D c v := by
  rw [raw_iff, hl]
  constructor
  · rintro ⟨v, b, h1, rfl, h2⟩
    have hv : v.length < 2 ^ 64 := by simp only [List.length_cons, List.length_append] at he; omega
    exact ⟨b, v, rfl, h2, (encodeContent_iff D c v hv).1 h1⟩
  · rintro ⟨b, v, rfl, h1, h3⟩
    have hv : v.length < 2 ^ 64 := by simp only [List.length_cons] at he; omega
    exact ⟨v, b, (encodeContent_iff D c v hv).2 h3, rfl, h1⟩

example := (C92_raw_indefinite Tests.D0 (Header.new .universal true 16 .indefinite) (.sequence [.fromObj .null]) _ rfl
  (by decide : [0x30, 0x80, 0x05, 0x00].length < 2 ^ 64)).1 rfl

/-- C92: with the right length it writes what `ber_encode_object` writes. -/
theorem C92_raw_consistent (D : Deps) (h : Header) (c : Content) (v : Bytes) (hv : encodeContent D c = .ok v)
    (hl : h.length = .definite v.length) : encodeObjectRaw D h c = toVec D (.mk h c) := by
  unfold encodeObjectRaw toVec
  rw [encodeObject, hv]
  simp only [ok_bind]
  rw [← hl]

example := C92_raw_consistent Tests.D0 (Header.new .universal true 16 (.definite 2)) (.sequence [.fromObj .null]) _ rfl rfl

/-- C92: `ber_encode_object_raw` panics exactly when a tag number above 30 is to be written. -/
theorem C92_raw_panics (D : Deps) (h : Header) (c : Content) :
    (encodeObjectRaw D h c = .panic ↔ 30 < h.tag ∨ ¬ TagsOkC c) ∧
      ((∃ e, encodeObjectRaw D h c = .ok e) ↔ h.tag ≤ 30 ∧ TagsOkC c) := by
  obtain ⟨h1, h2⟩ := encodeContent_total D c
  have key : (30 < h.tag ∨ ¬ TagsOkC c → encodeObjectRaw D h c = .panic) ∧
      (h.tag ≤ 30 ∧ TagsOkC c → ∃ e, encodeObjectRaw D h c = .ok e) := by
    unfold encodeObjectRaw
    constructor
    · intro H
      by_cases ht : 30 < h.tag
      · rw [(C45_large_tag_panics h).2 ht]; rfl
      · rw [encodeHeader_ok.2 ⟨by omega, rfl⟩, ok_bind, h2 (H.resolve_left ht)]; rfl
    · rintro ⟨ht, hc⟩
      obtain ⟨v, hv⟩ := h1 hc
      rw [encodeHeader_ok.2 ⟨ht, rfl⟩, ok_bind, hv]
      exact ⟨_, rfl⟩
  by_cases hd : h.tag ≤ 30 ∧ TagsOkC c
  · obtain ⟨e, he⟩ := key.2 hd
    refine ⟨?_, fun _ => hd, key.2⟩
    rw [he]
    simp only [reduceCtorEq, false_iff]
    rintro (h | h)
    · omega
    · exact h hd.2
  · have hp : 30 < h.tag ∨ ¬ TagsOkC c := by
      by_cases ht : 30 < h.tag
      · exact .inl ht
      · exact .inr fun hc => hd ⟨by omega, hc⟩
    refine ⟨⟨fun _ => hp, key.1⟩, fun ⟨e, he⟩ => ?_, fun h => absurd h hd⟩
    rw [key.1 hp] at he
    simp at he

example := ((C92_raw_panics Tests.D0 (Header.new .contextSpecific true 31 (.definite 2)) (.sequence [.fromObj .null])).1).2
  (.inl (by decide))

/-- C92: `ber_encode_tagged_explicit` writes a constructed element of the given class and tag number around the
element of the object. -/
theorem C92_explicit_exact (D : Deps) (tag : Nat) (cls : Class) (o : BerObject) (e : Bytes) (he : e.length < 2 ^ 64) :
    encodeTaggedExplicit D tag cls o = .ok e ↔ ∃ b len v, e = b :: (len ++ v) ∧
      IdentOctets [b] cls true tag ∧ MinLen len v.length ∧ Encodes D o v := by
  unfold encodeTaggedExplicit
  constructor
  · intro H
    obtain ⟨v, h1, h2⟩ := bind_eq_ok.1 H
    obtain ⟨b, rfl, h3⟩ := header_then.1 h2
    have hv : v.length < 2 ^ 64 := by simp only [List.length_cons, List.length_append] at he; omega
    exact ⟨b, _, v, rfl, h3, (minLen_iff (by rw [← pow64]; exact hv)).2 rfl, (encodeObject_iff D o v hv).1 h1⟩
  · rintro ⟨b, len, v, rfl, h1, h2, h3⟩
    have hv : v.length < 2 ^ 64 := by simp only [List.length_cons, List.length_append] at he; omega
    rw [(encodeObject_iff D o v hv).2 h3, ok_bind, header_then]
    exact ⟨b, by rw [(minLen_iff (by rw [← pow64]; exact hv)).1 h2]; rfl, h1⟩

example := (C92_explicit_exact Tests.D0 3 .application (.fromObj .null) _
  (by decide : [0x63, 0x02, 0x05, 0x00].length < 2 ^ 64)).1 rfl

/-- C92: `ber_encode_tagged_implicit` writes the contents octets of the object under the given class and tag number;
the form is the one of the object. -/
theorem C92_implicit_exact (D : Deps) (tag : Nat) (cls : Class) (o : BerObject) (e : Bytes) (he : e.length < 2 ^ 64) :
    encodeTaggedImplicit D tag cls o = .ok e ↔ ∃ b len v, e = b :: (len ++ v) ∧
      IdentOctets [b] cls o.header.constructed tag ∧ MinLen len v.length ∧ EncodesC D o.content v := by
  unfold encodeTaggedImplicit
  constructor
  · intro H
    obtain ⟨v, h1, h2⟩ := bind_eq_ok.1 H
    obtain ⟨b, rfl, h3⟩ := header_then.1 h2
    have hv : v.length < 2 ^ 64 := by simp only [List.length_cons, List.length_append] at he; omega
    exact ⟨b, _, v, rfl, h3, (minLen_iff (by rw [← pow64]; exact hv)).2 rfl, (encodeContent_iff D _ v hv).1 h1⟩
  · rintro ⟨b, len, v, rfl, h1, h2, h3⟩
    have hv : v.length < 2 ^ 64 := by simp only [List.length_cons, List.length_append] at he; omega
    rw [(encodeContent_iff D _ v hv).2 h3, ok_bind, header_then]
    exact ⟨b, by rw [(minLen_iff (by rw [← pow64]; exact hv)).1 h2]; rfl, h1⟩

example := (C92_implicit_exact Tests.D0 3 .application (.fromObj (.integer [5])) _
  (by decide : [0x43, 0x01, 0x05].length < 2 ^ 64)).1 rfl

/-- C92: both panic exactly when a tag number above 30 is to be written. -/
theorem C92_tagged_panics (D : Deps) (tag : Nat) (cls : Class) (o : BerObject) :
    (encodeTaggedExplicit D tag cls o = .panic ↔ 30 < tag ∨ ¬ TagsOk o) ∧
      (encodeTaggedImplicit D tag cls o = .panic ↔ 30 < tag ∨ ¬ TagsOkC o.content) := by
  have hh : ∀ k (l : Length), 30 < tag → encodeHeader (Header.new cls k tag l) = .panic := fun k l ht =>
    (C45_large_tag_panics _).2 ht
  have hk : ∀ k (l : Length), ¬ 30 < tag → ∃ b, encodeHeader (Header.new cls k tag l) = .ok b := fun k l ht =>
    ⟨_, encodeHeader_ok.2 ⟨by simp only [Header.new]; omega, rfl⟩⟩
  obtain ⟨h1, h2⟩ := encodeObject_total D o
  obtain ⟨h3, h4⟩ := encodeContent_total D o.content
  unfold encodeTaggedExplicit encodeTaggedImplicit
  constructor
  · by_cases hc : TagsOk o
    · obtain ⟨e, he⟩ := h1 hc
      rw [he, ok_bind]
      by_cases ht : 30 < tag
      · rw [hh _ _ ht]; simp [ht]
      · obtain ⟨b, hb⟩ := hk true (.definite e.length) ht
        rw [hb]; simp [ht, hc]
    · rw [h2 hc]; simp [hc]
  · by_cases hc : TagsOkC o.content
    · obtain ⟨e, he⟩ := h3 hc
      rw [he, ok_bind]
      by_cases ht : 30 < tag
      · rw [hh _ _ ht]; simp [ht]
      · obtain ⟨b, hb⟩ := hk o.header.constructed (.definite e.length) ht
        rw [hb]; simp [ht, hc]
    · rw [h4 hc]; simp [hc]

/-- C92: an object with a `Tagged` content is written as EXPLICIT by the class, form and tag number of its own
header; the class and tag number stored in the content are not used. -/
theorem C92_tagged_content (D : Deps) (h : Header) (c : Class) (t : Nat) (o : BerObject) (hc : h.constructed = true) :
    toVec D (.mk h (.tagged c t o)) = encodeTaggedExplicit D h.tag h.cls o := by
  unfold toVec encodeTaggedExplicit
  rw [encodeObject, encodeContent]
  cases encodeObject D o with
  | ok v =>
    simp only [ok_bind]
    have : encodeHeader { h with length := .definite v.length } =
        encodeHeader (Header.new h.cls true h.tag (.definite v.length)) := by
      unfold encodeHeader Header.new
      simp only [hc]
    rw [this]
  | err e => cases e
  | panic => rfl
  | diverge => rfl

example := C92_tagged_content Tests.D0 (Header.new .application true 3 (.definite 2)) .contextSpecific 7 (.fromObj .null) rfl

/-- C92: an object with an `Optional(Some(_))` content is written as the inner contents under the outer header: the
inner header is not written. -/
theorem C92_optional_content (D : Deps) (h h' : Header) (c : Content) :
    toVec D (.mk h (.optionalSome (.mk h' c))) = toVec D (.mk h c) ∧
      ∀ v, toVec D (.mk h .optionalNone) = .ok v ↔ ∃ b, v = [b, 0x00] ∧ IdentOctets [b] h.cls h.constructed h.tag := by
  constructor
  · unfold toVec
    rw [encodeObject, encodeObject, encodeContent, encodeInnerContent]
  · intro v
    unfold toVec
    rw [encodeObject, encodeContent, ok_bind, header_then]
    rfl

/-! ## Raw serialization with indefinite length -/

theorem element_of_encode {D : Deps} {o : BerObject} {e : Bytes} (n : Nat) (he : encodeObject D o = .ok e)
    (hl : e.length < 2 ^ 64) (ht : o.header.tag ≠ 0) : Element LooseEoc LooseEoc (n + 1) e := by
  obtain ⟨h, c⟩ := o
  rw [encodeObject] at he
  obtain ⟨v, -, h2⟩ := bind_eq_ok.1 he
  obtain ⟨vh, h3, h4⟩ := bind_eq_ok.1 h2
  simp only [ok.injEq] at h4
  subst h4
  obtain ⟨htag, rfl⟩ := encodeHeader_ok.1 h3
  have hv : v.length < 2 ^ 64 := by rw [List.length_append] at hl; omega
  have hB := berHeader_encode (h := { h with length := .definite v.length }) htag
    (fun n hn => by simp only [Length.definite.injEq] at hn; omega) (fun hn => by simp at hn)
  refine .definite n v.length _ v _ hB rfl rfl ?_
  rintro ⟨h', hB', ht', -⟩
  have e1 := (headerFromBer_iff (rem := v)).2 ⟨_, rfl, hB⟩
  have e2 := (headerFromBer_iff (rem := [])).2 ⟨_, (List.append_nil _).symm, hB'⟩
  rw [e1] at e2
  simp only [ok.injEq, Prod.mk.injEq] at e2
  rw [← e2.2] at ht'
  exact ht ht'

theorem elements_of_encode {D : Deps} (n : Nat) : ∀ (l : List BerObject) (v : Bytes), encodeList D l = .ok v →
    v.length < 2 ^ 64 → (∀ o ∈ l, o.header.tag ≠ 0) →
    ∃ es : List Bytes, v = es.flatten ∧ ∀ e ∈ es, Element LooseEoc LooseEoc (n + 1) e
  | [], v, h, _, _ => by
    simp only [encodeList, ok.injEq] at h
    subst h
    exact ⟨[], rfl, by simp⟩
  | o :: os, v, h, hv, ht => by
    rw [encodeList] at h
    obtain ⟨a, h1, h2⟩ := bind_eq_ok.1 h
    obtain ⟨b, h3, h4⟩ := bind_eq_ok.1 h2
    simp only [ok.injEq] at h4
    subst h4
    rw [List.length_append] at hv
    obtain ⟨es, rfl, h5⟩ := elements_of_encode n os b h3 (by omega) (fun o ho => ht o (by simp [ho]))
    refine ⟨a :: es, rfl, fun e he => ?_⟩
    rcases List.mem_cons.1 he with rfl | he
    · exact element_of_encode n h1 (by omega) (ht o (by simp))
    · exact h5 e he

/-- C92: a SEQUENCE or SET written raw with the indefinite length and followed by end-of-contents octets is read
back; no member may have the tag number 0 (an empty one would end the contents). -/
theorem C92_raw_indefinite_parsed (D : Deps) (o : BerObject) (l : List BerObject) (hW : Wf D 50 o)
    (hx : o.content = .sequence l ∨ o.content = .set l) (ht : ∀ o' ∈ l, o'.header.tag ≠ 0)
    (hi : o.header.length = .indefinite) :
    ∃ e, encodeObjectRaw D o.header o.content = .ok e ∧ (e.length < 2 ^ 64 → ∀ rest, ∃ x,
      parseBer D (e ++ [0x00, 0x00] ++ rest) = .ok (rest, .mk { o.header with rawTag := some (e.take 1) } x) ∧
      eraseC x = eraseC o.content) := by
  have htags : TagsOkC o.content := by
    have := wf_tagsOk hW
    rw [← BerObject.eta o] at this
    exact this.2
  have htag := wf_tag hW
  obtain ⟨v, hv⟩ := (encodeContent_total D o.content).1 htags
  have hlist : encodeList D l = .ok v := by
    rcases hx with hx | hx <;> rw [hx, encodeContent] at hv <;> exact hv
  have hcons : o.header.constructed = true ∧ o.header.cls = .universal := by
    cases hW with
    | leaf _ h x _ hL => rcases hx with hx | hx <;> (simp only [BerObject.content_mk] at hx; subst hx; exact hL.elim)
    | sequence _ _ _ h1 _ h2 => exact ⟨h2, h1⟩
    | set _ _ _ h1 _ h2 => exact ⟨h2, h1⟩
  refine ⟨identByte o.header :: (encodeLength o.header.length ++ v), raw_iff.2 ⟨v, _, hv, rfl,
    identOctet_iff.2 ⟨htag, rfl⟩⟩, fun hl rest => ?_⟩
  have hvl : v.length < 2 ^ 64 := by simp only [List.length_cons, List.length_append] at hl; omega
  obtain ⟨es, hes, hel⟩ := elements_of_encode 48 l v hlist hvl ht
  have hB := berHeader_encode (h := o.header) htag (fun n hn => by rw [hi] at hn; simp at hn) (fun _ => hcons.1)
  have hF : Framed 50 (identByte o.header :: encodeLength o.header.length ++ (es.flatten ++ [0, 0]))
      { o.header with rawTag := some [identByte o.header] } ((es.flatten ++ [0, 0]).take
        ((es.flatten ++ [0, 0]).length - 2)) := .indefinite 48 _ es [0, 0] _ rfl hB hi hel ⟨_, eocHeader, rfl, rfl⟩
  rw [← hes, show (v ++ [0, 0] : Bytes).length - 2 = v.length by simp, List.take_left] at hF
  have htag' : o.header.tag = 16 ∨ o.header.tag = 17 := by
    cases hW with
    | leaf _ h x _ hL => rcases hx with hx | hx <;> (simp only [BerObject.content_mk] at hx; subst hx; exact hL.elim)
    | sequence _ _ _ _ h1 _ => exact .inl h1
    | set _ _ _ _ h1 _ => exact .inr h1
  obtain ⟨x, g1, g2⟩ := wf_content hW hv hvl (h' := { o.header with length := .definite v.length }) ⟨rfl, rfl, rfl⟩ rfl
  refine ⟨x, ?_, g2⟩
  have g3 : Denotes D 50 { o.header with rawTag := some [identByte o.header] } v x := by
    cases g1 with
    | leaf _ _ _ _ hL => have := leaf_not_sequence hL hcons.2; dsimp only at this; omega
    | sequence _ _ items a1 a2 a3 a4 a5 => exact .sequence _ _ items a1 a2 a3 a4 a5
    | set _ _ items a1 a2 a3 a4 a5 => exact .set _ _ items a1 a2 a3 a4 a5
  refine parseBerRecursive_iff.2 ⟨_, v, ?_, hF, g3⟩
  simp

/-- A well-formed SEQUENCE with the indefinite length: `30 80 05 00`, and `00 00` to be added. -/
example : Wf Tests.D0 50 (.mk (Header.new .universal true 16 .indefinite)
      (.sequence [.mk (Header.new .universal false 5 (.definite 0)) .null])) ∧
    encodeObjectRaw Tests.D0 (Header.new .universal true 16 .indefinite)
      (.sequence [.mk (Header.new .universal false 5 (.definite 0)) .null]) = .ok [0x30, 0x80, 0x05, 0x00] := by
  refine ⟨.sequence _ _ _ rfl rfl rfl fun o ho => ?_, rfl⟩
  rw [List.mem_singleton.1 ho]
  exact .leaf _ _ _ (by decide) ⟨rfl, rfl⟩

/-- A header that lies: five octets announced, one written. -/
example : encodeObjectRaw Tests.D0 (Header.new .universal false 2 (.definite 5)) (.integer [0x01]) =
    .ok [0x02, 0x05, 0x01] := rfl

example : encodeTaggedImplicit Tests.D0 3 .application (.mk (Header.new .universal true 16 (.definite 9)) (.sequence [])) =
    .ok [0x63, 0x00] ∧
    encodeTaggedExplicit Tests.D0 3 .application (.mk (Header.new .universal false 5 (.definite 9)) .null) =
    .ok [0x63, 0x02, 0x05, 0x00] := ⟨rfl, rfl⟩

end Verif
