import Verif.Lemmas.EncodeTree
import Verif.Props.Combinators
/-!
# Serialization: C44 to C49, C60

Sizes: the theorems assume that the serialized object has less than 2^64 octets, which every `Vec`
has on a 64-bit machine.
-/
namespace Verif
open Outcome Spec

/-! ## C44 -/

/-- C44: the length octets written for `n` are the definite form of `n`. -/
theorem C44_length_octets (n : Nat) (hn : n < 2 ^ 64) :
    LenOctets (encodeLength (.definite n)) (.definite n) :=
  lenOctets_encodeLength (Nat.lt_of_lt_of_eq hn pow64)

/-- C44: no shorter definite form exists, and the one written is the only one of that size. -/
theorem C44_minimal (n : Nat) (hn : n < 2 ^ 64) (len : Bytes) :
    MinLen len n ↔ len = encodeLength (.definite n) :=
  minLen_iff (Nat.lt_of_lt_of_eq hn pow64)

example := (C44_minimal 300 (by decide) [0x82, 0x01, 0x2c]).2 (by decide +kernel)

/-- C44: the header parsers read the length back, after any low-number identifier octet and before
any bytes. -/
theorem C44_parsed_back (b : UInt8) (hb : b.toNat % 32 ≠ 31) (n : Nat) (hn : n < 2 ^ 64)
    (rest : Bytes) :
    (headerFromBer (b :: (encodeLength (.definite n) ++ rest))).map (fun r => (r.1, r.2.length)) =
      .ok (rest, .definite n) ∧
    (headerFromDer (b :: (encodeLength (.definite n) ++ rest))).map (fun r => (r.1, r.2.length)) =
      .ok (rest, .definite n) := by
  have H : BerHeader (b :: encodeLength (.definite n))
      ⟨classOf b, constructedBit b, b.toNat % 32, .definite n, some [b]⟩ := by
    refine ⟨⟨[b], _, b.toNat % 32, rfl, .low b hb, C44_length_octets n hn, ?_, by simp, rfl⟩,
      fun m hm => by simp only [Length.definite.injEq] at hm; omega, fun hm => by simp at hm⟩
    have h1 : b.toNat % 32 < 32 := Nat.mod_lt _ (by decide)
    have h2 : (32 : Nat) ≤ 2 ^ 32 := by decide
    exact (Nat.mod_eq_of_lt (Nat.lt_of_lt_of_le h1 h2)).symm
  constructor
  · rw [← List.cons_append, (headerFromBer_iff (rem := rest)).2 ⟨_, rfl, H⟩]; rfl
  · rw [← List.cons_append, (headerFromDer_iff (rem := rest)).2 ⟨_, rfl, ⟨H, by simp⟩⟩]; rfl

example : encodeLength (.definite 127) = [127] := rfl
example : encodeLength (.definite 128) = [0x81, 128] := by decide +kernel
example : encodeLength (.definite 65536) = [0x83, 1, 0, 0] := by decide +kernel

/-! ## C45 -/

/-- C45: what `ber_encode_header` writes is read back, whatever follows; only the raw tag is added. -/
theorem C45_header_round_trip (h : Header) (ht : h.tag ≤ 30)
    (hl : ∀ n, h.length = .definite n → n < 2 ^ 64)
    (hi : h.length = .indefinite → h.constructed = true) :
    ∃ hb raw, encodeHeader h = .ok hb ∧
      ∀ rest, headerFromBer (hb ++ rest) = .ok (rest, { h with rawTag := some raw }) :=
  ⟨_, _, encodeHeader_ok.2 ⟨ht, rfl⟩, fun _ =>
    headerFromBer_iff.2 ⟨_, rfl, berHeader_encode ht hl hi⟩⟩

example := C45_header_round_trip (Header.new .contextSpecific true 30 .indefinite) (by decide) (fun _ h => by cases h) (fun _ => rfl)

/-- C45: for definite lengths the DER header parser agrees. -/
theorem C45_header_round_trip_der (h : Header) (ht : h.tag ≤ 30) (n : Nat)
    (hl : h.length = .definite n) (hn : n < 2 ^ 64) :
    ∃ hb raw, encodeHeader h = .ok hb ∧
      ∀ rest, headerFromDer (hb ++ rest) = .ok (rest, { h with rawTag := some raw }) :=
  ⟨_, _, encodeHeader_ok.2 ⟨ht, rfl⟩, fun _ =>
    headerFromDer_iff.2 ⟨_, rfl, berHeader_encode ht
      (fun m hm => by rw [hl] at hm; simp only [Length.definite.injEq] at hm; omega)
      (fun hm => by rw [hl] at hm; simp at hm), by rw [hl]; simp⟩⟩

example := C45_header_round_trip_der (Header.new .contextSpecific true 30 (.definite 300)) (by decide) 300 rfl (by decide)

/-- C45: larger tag numbers make the encoder panic (`unimplemented!()`). -/
theorem C45_large_tag_panics (h : Header) : encodeHeader h = .panic ↔ 30 < h.tag := by
  unfold encodeHeader
  split <;> simp_all

/-- C45: the header written for a primitive element of indefinite length is refused, so the
hypothesis of `C45_header_round_trip` is needed. -/
theorem C45_primitive_indefinite_refused :
    (encodeHeader (Header.new .universal false 4 .indefinite) = .ok [0x04, 0x80]) ∧
    ∀ rem h, headerFromBer [0x04, 0x80] ≠ .ok (rem, h) := by
  refine ⟨rfl, fun rem h => ?_⟩
  have : headerFromBer [0x04, 0x80] = .err (.error .constructExpected) := rfl
  rw [this]; simp

example : encodeHeader (Header.new .contextSpecific true 30 (.definite 300)) =
    .ok [0xbe, 0x82, 0x01, 0x2c] := by decide +kernel

/-! ## C46 -/

/-- A well-formed tree with wrong length fields. -/
def Tests.tree : BerObject :=
  .mk (Header.new .universal true 16 .indefinite)
    (.sequence [.mk (Header.new .universal false 2 (.definite 7)) (.integer [1, 0, 1]),
      .mk (Header.new .contextSpecific true 0 (.definite 1))
        (.unknown ⟨Header.new .contextSpecific true 0 (.definite 9), [5, 0]⟩),
      .mk (Header.new .universal true 17 (.definite 0)) (.set [])])

theorem tree_wf : Wf Tests.D0 50 Tests.tree := by
  refine .sequence _ _ _ rfl rfl rfl ?_
  intro o ho
  simp only [List.mem_cons, List.not_mem_nil, or_false] at ho
  rcases ho with rfl | rfl | rfl
  · exact .leaf _ _ _ (by decide) ⟨rfl, rfl⟩
  · exact .leaf _ _ _ (by decide) ⟨⟨rfl, rfl, rfl⟩, .inl (by decide)⟩
  · exact .set _ _ _ rfl rfl rfl (by simp)

/-- C46: a well-formed tree is serialized, and parsing the result gives it back, up to the stored
length and raw tag fields, whatever follows. -/
theorem C46_serialize_parse (D : Deps) (o : BerObject) (hW : Wf D 50 o) :
    ∃ e, toVec D o = .ok e ∧ (e.length < 2 ^ 64 → ∀ rest, ∃ o',
      parseBer D (e ++ rest) = .ok (rest, o') ∧ erase o' = erase o) := by
  obtain ⟨e, he⟩ := (encodeObject_total D o).1 (wf_tagsOk hW)
  refine ⟨e, he, fun hl rest => ?_⟩
  obtain ⟨v, x', _, h2, h3, h4⟩ := wf_object hW he hl
  refine ⟨.mk _ x', parseBerRecursive_iff.2 ⟨e, v, rfl, h2, h3⟩, ?_⟩
  rw [← BerObject.eta o]
  simp only [erase, h4]
  rfl

example := C46_serialize_parse Tests.D0 Tests.tree tree_wf

/-- C46: the length fields of the object that was read are the sizes of the contents octets written;
here for the outermost object (C49 says it for all levels). -/
theorem C46_length_recomputed (D : Deps) (o o' : BerObject) (e rest v : Bytes) (hW : Wf D 50 o)
    (he : toVec D o = .ok e) (hl : e.length < 2 ^ 64) (hp : parseBer D (e ++ rest) = .ok (rest, o'))
    (hv : encodeContent D o.content = .ok v) : o'.header.length = .definite v.length := by
  obtain ⟨v', x', h1, h2, h3, h4⟩ := wf_object hW he hl
  rw [hv] at h1
  simp only [ok.injEq] at h1
  subst h1
  have := (parseBerRecursive_iff (rem := rest) (o := .mk _ x')).2 ⟨e, v, rfl, h2, h3⟩
  rw [show parseBerRecursive D 50 (e ++ rest) = .ok (rest, o') from hp] at this
  simp only [ok.injEq, Prod.mk.injEq, true_and] at this
  rw [this]
  rfl

example := C46_length_recomputed Tests.D0 Tests.tree _ [0x30, 0x0b, 0x02, 0x03, 1, 0, 1, 0xa0, 0x02, 5, 0, 0x31, 0x00] [9]
  [0x02, 0x03, 1, 0, 1, 0xa0, 0x02, 5, 0, 0x31, 0x00] tree_wf (by decide +kernel) (by decide) rfl (by decide +kernel)

/-! ### Equality in the sense of `==` -/

mutual
/-- No raw tags stored (as in all objects that were not parsed). -/
def Spec.NoRaw : BerObject → Prop
  | .mk h c => h.rawTag = none ∧ NoRawC c
/-- The same for contents. -/
def Spec.NoRawC : Content → Prop
  | .sequence l | .set l => NoRawL l
  | .optionalSome o | .tagged _ _ o => NoRaw o
  | .unknown a => a.header.rawTag = none
  | _ => True
/-- The same for lists. -/
def Spec.NoRawL : List BerObject → Prop
  | [] => True
  | o :: os => NoRaw o ∧ NoRawL os
end

theorem header_rustEq_of_erase {h h' : Header} (he : eraseH h = eraseH h') (hr : h.rawTag = none) :
    h.rustEq h' = true := by
  simp only [eraseH, Header.mk.injEq] at he
  simp [Header.rustEq, he, hr]

mutual
theorem rustEq_of_erase : ∀ o o' : BerObject, erase o = erase o' → NoRaw o → o.rustEq o' = true
  | .mk h c, .mk h' c', he, hr => by
    simp only [erase, BerObject.mk.injEq] at he
    rw [BerObject.rustEq, header_rustEq_of_erase he.1 hr.1, rustEq_of_eraseC c c' he.2 hr.2]
    rfl
theorem rustEq_of_eraseC : ∀ c c' : Content, eraseC c = eraseC c' → NoRawC c → c.rustEq c' = true
  | .endOfContent, c', he, _ => by cases c' <;> simp_all [eraseC, Content.rustEq]
  | .boolean b, c', he, _ => by cases c' <;> simp_all [eraseC, Content.rustEq]
  | .integer s, c', he, _ => by cases c' <;> simp_all [eraseC, Content.rustEq]
  | .bitString u s, c', he, _ => by cases c' <;> simp_all [eraseC, Content.rustEq]
  | .octetString s, c', he, _ => by cases c' <;> simp_all [eraseC, Content.rustEq]
  | .null, c', he, _ => by cases c' <;> simp_all [eraseC, Content.rustEq]
  | .enum n, c', he, _ => by cases c' <;> simp_all [eraseC, Content.rustEq]
  | .oid s, c', he, _ => by cases c' <;> simp_all [eraseC, Content.rustEq]
  | .relativeOid s, c', he, _ => by cases c' <;> simp_all [eraseC, Content.rustEq]
  | .utcTime t, c', he, _ => by cases c' <;> simp_all [eraseC, Content.rustEq]
  | .generalizedTime t, c', he, _ => by cases c' <;> simp_all [eraseC, Content.rustEq]
  | .str k s, c', he, _ => by cases c' <;> simp_all [eraseC, Content.rustEq]
  | .bmpString s, c', he, _ => by cases c' <;> simp_all [eraseC, Content.rustEq]
  | .universalString s, c', he, _ => by cases c' <;> simp_all [eraseC, Content.rustEq]
  | .optionalNone, c', he, _ => by cases c' <;> simp_all [eraseC, Content.rustEq]
  | .sequence l, c', he, hr => by
    cases c' <;> simp only [eraseC, reduceCtorEq, Content.sequence.injEq] at he
    rw [Content.rustEq]; exact rustEq_of_eraseL l _ he hr
  | .set l, c', he, hr => by
    cases c' <;> simp only [eraseC, reduceCtorEq, Content.set.injEq] at he
    rw [Content.rustEq]; exact rustEq_of_eraseL l _ he hr
  | .optionalSome o, c', he, hr => by
    cases c' <;> simp only [eraseC, reduceCtorEq, Content.optionalSome.injEq] at he
    rw [Content.rustEq]; exact rustEq_of_erase o _ he hr
  | .tagged k t o, c', he, hr => by
    cases c' <;> simp only [eraseC, reduceCtorEq, Content.tagged.injEq] at he
    rw [Content.rustEq, rustEq_of_erase o _ he.2.2 hr]
    simp [he.1, he.2.1]
  | .unknown a, c', he, hr => by
    cases c' <;> simp only [eraseC, reduceCtorEq, Content.unknown.injEq, Any.mk.injEq] at he
    rw [Content.rustEq, header_rustEq_of_erase he.1 hr]
    simp [he.2]
theorem rustEq_of_eraseL : ∀ l l' : List BerObject, eraseL l = eraseL l' → NoRawL l →
    listRustEq l l' = true
  | [], l', he, _ => by cases l' <;> simp_all [eraseL, listRustEq]
  | o :: os, l', he, hr => by
    cases l' with
    | nil => simp [eraseL] at he
    | cons o' os' =>
      simp only [eraseL, List.cons.injEq] at he
      rw [listRustEq, rustEq_of_erase o o' he.1 hr.1, rustEq_of_eraseL os os' he.2 hr.2]
      rfl
end

/-- C46: for objects that store no raw tags (built with `from_obj` and the like) the object read
back is equal to the original one in the sense of Rust's `==`. -/
theorem C46_serialize_parse_eq (D : Deps) (o : BerObject) (hW : Wf D 50 o) (hr : NoRaw o) :
    ∃ e, toVec D o = .ok e ∧ (e.length < 2 ^ 64 → ∀ rest, ∃ o',
      parseBer D (e ++ rest) = .ok (rest, o') ∧ o.rustEq o' = true) := by
  obtain ⟨e, h1, h2⟩ := C46_serialize_parse D o hW
  refine ⟨e, h1, fun hl rest => ?_⟩
  obtain ⟨o', h3, h4⟩ := h2 hl rest
  exact ⟨o', h3, rustEq_of_erase o o' h4.symm hr⟩

example := C46_serialize_parse_eq Tests.D0 Tests.tree tree_wf
  (by simp [Tests.tree, NoRaw, NoRawC, NoRawL, Header.new])

example : toVec Tests.D0 Tests.tree =
    .ok [0x30, 0x0b, 0x02, 0x03, 1, 0, 1, 0xa0, 0x02, 5, 0, 0x31, 0x00] := by decide +kernel

/-! ## C47 -/

/-- C47 in full. -/
def C47Statement : Prop :=
  ∀ (D : Deps) (i rem : Bytes) (o : BerObject), parseBer D i = .ok (rem, o) →
    (∀ o', Node o' o → o'.header.tag ≤ 30) →
    ∃ e, toVec D o = .ok e ∧ (e.length < 2 ^ 64 → ∃ o', parseBer D e = .ok ([], o') ∧
      erase o' = erase o ∧ toVec D o' = .ok e)

/-- A time library that writes other digits than it reads. -/
def Tests.D2 : Deps :=
  { Tests.D0 with
    utcTime := fun _ c => if c = [0x30, 0x5a] then .ok ⟨[]⟩ else .error .invalidDateTime
    display := fun _ => [0x30, 0x30, 0x5a] }

/-- C47 needs the time library to read what it writes (which is not so if, as `ASN1DateTime` does,
it writes years with four digits where UTCTime has two). -/
theorem C47_times_counterexample : ¬ C47Statement := by
  intro h
  obtain ⟨e, h1, h2⟩ := h Tests.D2 [0x17, 0x02, 0x30, 0x5a] []
    (.mk (Tests.h .universal false 23 2 [0x17]) (.utcTime ⟨[]⟩)) rfl (by
      intro o' hn
      cases hn
      exact (by decide : (23 : Nat) ≤ 30))
  have h3 : toVec Tests.D2 (.mk (Tests.h .universal false 23 2 [0x17]) (.utcTime ⟨[]⟩)) =
    .ok [0x17, 0x03, 0x30, 0x30, 0x5a] := by rfl
  rw [h3] at h1
  simp only [ok.injEq] at h1
  subst h1
  obtain ⟨o', h4, _⟩ := h2 (by decide)
  have h5 : parseBer Tests.D2 [0x17, 0x03, 0x30, 0x30, 0x5a] = .err (.error .invalidDateTime) := rfl
  rw [h5] at h4
  simp at h4

/-- C47, what holds: for trees whose times are read back from their written form (in particular
trees without times).  Missing: other times. -/
theorem C47_stable_partial (D : Deps) (i rem : Bytes) (o : BerObject)
    (h : parseBer D i = .ok (rem, o)) (ht : ∀ o', Node o' o → o'.header.tag ≤ 30)
    (hu : ∀ o', Node o' o → ∀ t, o'.content = .utcTime t →
      D.utcTime o'.header.constructed (D.display t) = .ok t)
    (hg : ∀ o', Node o' o → ∀ t, o'.content = .generalizedTime t →
      D.generalizedTime o'.header.constructed (D.display t) = .ok t) :
    ∃ e, toVec D o = .ok e ∧ (e.length < 2 ^ 64 → ∃ o', parseBer D e = .ok ([], o') ∧
      erase o' = erase o ∧ toVec D o' = .ok e) := by
  obtain ⟨_, c, _, _, h3⟩ := parseBerRecursive_iff.1 h
  have hW : Wf D 50 o := by
    rw [← BerObject.eta o]
    exact denotes_wf h3 (by simpa using ht) (by simpa using hu) (by simpa using hg)
  obtain ⟨e, h4, h5⟩ := C46_serialize_parse D o hW
  refine ⟨e, h4, fun hl => ?_⟩
  obtain ⟨o', h6, h7⟩ := h5 hl []
  refine ⟨o', by simpa using h6, h7, ?_⟩
  rw [toVec, ← encodeObject_erase, h7, encodeObject_erase]
  exact h4

example := C47_stable_partial Tests.D0 [0x05, 0x00] [] _ rfl (fun o' h => by cases h; decide) (fun o' h t ht => by cases h; cases ht)
  (fun o' h t ht => by cases h; cases ht)

/-- C47: the tag bound is what makes `to_vec` return: it panics exactly for trees with a larger tag
number. -/
theorem C47_panics_iff (D : Deps) (o : BerObject) :
    (toVec D o = .panic ↔ ¬ TagsOk o) ∧ ((∃ e, toVec D o = .ok e) ↔ TagsOk o) := by
  obtain ⟨h1, h2⟩ := encodeObject_total D o
  unfold toVec
  refine ⟨⟨fun h ht => ?_, h2⟩, ⟨fun ⟨e, h⟩ => ?_, h1⟩⟩
  · obtain ⟨e, he⟩ := h1 ht
    rw [he] at h; simp at h
  · refine Classical.byContradiction fun hn => ?_
    rw [h2 hn] at h; simp at h

example : (parseBer Tests.D0 [0x30, 0x80, 0x02, 0x81, 0x01, 0x05, 0x01, 0x01, 0x07, 0x00, 0x00]).bind
    (fun r => (toVec Tests.D0 r.2).mapErr Empty.elim) =
    .ok [0x30, 0x06, 0x02, 0x01, 0x05, 0x01, 0x01, 0xff] := by decide +kernel

/-! ## C48 -/

/-- C48: EXPLICIT: the parser gives the class and an object equal to the inner one. -/
theorem C48_explicit (D : Deps) (R : Rules) (tag : Nat) (cls : Class) (o : BerObject)
    (hW : Wf D 50 o) (ht : tag ≤ 30) (hc : cls ≠ .universal) :
    ∃ e, encodeTaggedExplicit D tag cls o = .ok e ∧ (e.length < 2 ^ 64 → ∀ rest, ∃ o',
      taggedExplicitG R tag (fun c h => parseBer D c >>? fun r => .ok (r.1, (h.cls, r.2)))
        (e ++ rest) = .ok (rest, (cls, o')) ∧ erase o' = erase o) := by
  obtain ⟨v, h1, h2⟩ := C46_serialize_parse D o hW
  have h1 : encodeObject D o = .ok v := h1
  let hd : Header := Header.new cls true tag (.definite v.length)
  refine ⟨identByte hd :: encodeLength (.definite v.length) ++ v, ?_, ?_⟩
  · unfold encodeTaggedExplicit
    rw [h1]
    simp only [ok_bind]
    rw [encodeHeader_ok.2 ⟨show hd.tag ≤ 30 from ht, rfl⟩]
    rfl
  · intro hl rest
    have hv : v.length < 2 ^ 64 := by rw [List.length_append] at hl; omega
    obtain ⟨o', h3, h4⟩ := h2 hv []
    refine ⟨o', ?_, h4⟩
    refine (C39_explicit_ok R tag _ _ _ _).2
      ⟨{ hd with rawTag := some [identByte hd] }, v, [], ?_, hc, rfl, rfl, ?_⟩
    · have hB := berHeader_encode (h := hd) ht
        (fun n hn => by simp only [hd, Header.new, Length.definite.injEq] at hn; omega)
        (fun hn => by simp [hd, Header.new] at hn)
      cases R with
      | ber => exact ⟨_, rfl, .definite _ v _ hB rfl⟩
      | der => exact ⟨_, rfl, ⟨hB, by simp [hd, Header.new]⟩, rfl⟩
    · rw [List.append_nil] at h3
      rw [h3]
      rfl

example := C48_explicit Tests.D0 .der 2 .application Tests.tree tree_wf (by decide) (by decide)

/-- C48: IMPLICIT: with the content reader of the type the parser gives the inner content. -/
theorem C48_implicit (D : Deps) (R : Rules) (tag : Nat) (cls : Class) (o : BerObject)
    (hW : Wf D 50 o) (hu : o.header.cls = .universal) (ht : tag ≤ 30) :
    ∃ e, encodeTaggedImplicit D tag cls o = .ok e ∧ (e.length ≤ 4294967295 → ∀ rest, ∃ x,
      taggedImplicitG R tag (parseBerContent D o.header.tag) (e ++ rest) = .ok (rest, x) ∧
      eraseC x = eraseC o.content) := by
  have htot := encodeContent_total D o.content
  have htags : TagsOkC o.content := by
    have := wf_tagsOk hW
    rw [← BerObject.eta o] at this
    exact this.2
  obtain ⟨v, h1⟩ := htot.1 htags
  let hd : Header := Header.new cls o.header.constructed tag (.definite v.length)
  refine ⟨identByte hd :: encodeLength (.definite v.length) ++ v, ?_, ?_⟩
  · unfold encodeTaggedImplicit
    rw [h1]
    simp only [ok_bind]
    rw [encodeHeader_ok.2 ⟨show hd.tag ≤ 30 from ht, rfl⟩]
    rfl
  · intro hl rest
    have hl' : v.length ≤ 4294967295 := by rw [List.length_append] at hl; omega
    have hv : v.length < 2 ^ 64 := Nat.lt_of_le_of_lt hl' (by decide)
    obtain ⟨x, h3, h4⟩ := wf_content hW h1 hv
      (h' := Header.new .universal o.header.constructed o.header.tag (.definite v.length))
      ⟨hu.symm, rfl, rfl⟩ rfl
    refine ⟨x, ?_, h4⟩
    have hB := berHeader_encode (h := hd) ht
      (fun n hn => by simp only [hd, Header.new, Length.definite.injEq] at hn; omega)
      (fun hn => by simp [hd, Header.new] at hn)
    have hF : FramedBy R (identByte hd :: encodeLength (.definite v.length) ++ v ++ rest) rest
        { hd with rawTag := some [identByte hd] } v := by
      cases R with
      | ber => exact ⟨_, rfl, .definite _ v _ hB rfl⟩
      | der => exact ⟨_, rfl, ⟨hB, by simp [hd, Header.new]⟩, rfl⟩
    rw [C40_implicit_partial R tag _ _ rest v _ hF, if_neg (by simp [hd, Header.new])]
    have h5 := readContentAs_definite h3 hl' []
    rw [List.append_nil] at h5
    unfold parseBerContent
    simp only [hd, Header.new] at h5 ⊢
    rw [h5]
    rfl

example := C48_implicit Tests.D0 .der 3 .contextSpecific Tests.tree tree_wf rfl (by decide)

example : encodeTaggedExplicit Tests.D0 2 .application (.fromIntSlice [2]) =
    .ok [0x62, 0x03, 0x02, 0x01, 0x02] := by decide +kernel
example : encodeTaggedImplicit Tests.D0 3 .contextSpecific (.fromIntSlice [2]) =
    .ok [0x83, 0x01, 0x02] := by decide +kernel

/-! ## C49 -/

/-- C49: the output is exactly the encoding described by `Spec.Encodes`, in which every length field
equals the number of contents octets that follow it, at every level. -/
theorem C49_exact (D : Deps) (o : BerObject) (e : Bytes) (he : e.length < 2 ^ 64) :
    toVec D o = .ok e ↔ Encodes D o e :=
  encodeObject_iff D o e he

/-- C49: objects without a tag number above 30 are serialized. -/
theorem C49_total (D : Deps) (o : BerObject) (h : TagsOk o) : ∃ e, toVec D o = .ok e :=
  (encodeObject_total D o).1 h

example := C49_total Tests.D0 Tests.tree (wf_tagsOk tree_wf)

/-- C49: the stored lengths (and raw tags) do not matter. -/
theorem C49_stored_lengths_ignored (D : Deps) (o o' : BerObject) (h : erase o = erase o') :
    toVec D o = toVec D o' := by
  unfold toVec
  rw [← encodeObject_erase, h, encodeObject_erase]

/-- The tree and the one that is read back. -/
example := C49_stored_lengths_ignored Tests.D0 (.fromObj (.integer [5])) (.mk ⟨.universal, false, 2, .definite 7, some [2]⟩ (.integer [5])) rfl

/-- C49: in particular the output is one element in the sense of the header reader: header octets
announcing exactly the rest. -/
theorem C49_framed (D : Deps) (o : BerObject) (e : Bytes) (he : e.length < 2 ^ 64)
    (h : toVec D o = .ok e) :
    ∃ v raw, encodeContent D o.content = .ok v ∧ Framed 1 e
      { o.header with length := .definite v.length, rawTag := some raw } v := by
  obtain ⟨hd, c⟩ := o
  unfold toVec at h
  rw [encodeObject] at h
  obtain ⟨v, h1, h2⟩ := bind_eq_ok.1 h
  obtain ⟨vh, h3, h4⟩ := bind_eq_ok.1 h2
  simp only [ok.injEq] at h4
  subst h4
  obtain ⟨ht, rfl⟩ := encodeHeader_ok.1 h3
  have hv : v.length < 2 ^ 64 := by rw [List.length_append] at he; omega
  exact ⟨v, _, h1, framed_of_encode ht hv 1⟩

example := C49_framed Tests.D0 Tests.tree [0x30, 0x0b, 0x02, 0x03, 1, 0, 1, 0xa0, 0x02, 5, 0, 0x31, 0x00] (by decide)
  (by decide +kernel)

/-- C49: `ber_encode_object_raw` keeps the given header: it may write any length. -/
theorem C49_raw (D : Deps) (h : Header) (c : Content) (e : Bytes) :
    encodeObjectRaw D h c = .ok e ↔
      ∃ vh v, encodeHeader h = .ok vh ∧ encodeContent D c = .ok v ∧ e = vh ++ v := by
  unfold encodeObjectRaw
  rw [bind_eq_ok]
  constructor
  · rintro ⟨vh, h1, h2⟩
    obtain ⟨v, h3, h4⟩ := bind_eq_ok.1 h2
    simp only [ok.injEq] at h4
    exact ⟨vh, v, h1, h3, h4.symm⟩
  · rintro ⟨vh, v, h1, h2, rfl⟩
    refine ⟨vh, h1, ?_⟩
    rw [h2]; rfl

example : Encodes Tests.D0 Tests.tree
    [0x30, 0x0b, 0x02, 0x03, 1, 0, 1, 0xa0, 0x02, 5, 0, 0x31, 0x00] :=
  (C49_exact _ _ _ (by decide)).1 (by decide +kernel)

/-! ## C60 -/

/-- C60 in full, part on headers: class, tag and form of `from_obj`. -/
def C60Statement : Prop :=
  ∀ c : Content, (BerObject.fromObj c).header.cls = .universal ∧
    (BerObject.fromObj c).header.tag = c.tag ∧
    ((BerObject.fromObj c).header.constructed = true ↔ (∃ l, c = .sequence l) ∨ ∃ l, c = .set l)

/-- C60 is false for tagged contents: the form follows the tag number, so `Tagged(_, 16, _)` is
marked as constructed and `Tagged(_, 0, _)` as primitive, and the class is lost. -/
theorem C60_tagged_counterexample : ¬ C60Statement := by
  intro h
  have h1 := (h (.tagged .contextSpecific 16 (.fromObj .null))).2.2.1 rfl
  rcases h1 with ⟨l, h1⟩ | ⟨l, h1⟩ <;> simp at h1

/-- A content of one of the universal types. -/
def Spec.Plain : Content → Prop
  | .unknown _ | .optionalNone | .optionalSome _ | .tagged _ _ _ => False
  | _ => True

/-- C60, headers, what holds: for every plain content the header has class universal, the universal
tag of the type, and is constructed exactly for SEQUENCE and SET.  Missing: `Tagged`, `Optional`,
`Unknown`. -/
theorem C60_from_obj_header_partial (c : Content) (hp : Plain c) :
    Agrees (BerObject.fromObj c).header c ∧ (BerObject.fromObj c).header.cls = .universal ∧
    ((BerObject.fromObj c).header.constructed = true ↔ (∃ l, c = .sequence l) ∨ ∃ l, c = .set l) ∧
    (BerObject.fromObj c).header.rawTag = none ∧ (BerObject.fromObj c).content = c := by
  cases c with
  | str k s => cases k <;> refine ⟨⟨rfl, rfl⟩, rfl, ?_, rfl, rfl⟩ <;> simp [BerObject.fromObj, Header.new, Content.tag, StrKind.tag, Tag.sequence, Tag.set,
      Tag.numericString, Tag.visibleString, Tag.printableString, Tag.ia5String, Tag.utf8String,
      Tag.teletexString, Tag.videotexString, Tag.objectDescriptor, Tag.graphicString, Tag.generalString]
  | unknown a => exact absurd hp id
  | optionalNone => exact absurd hp id
  | optionalSome o => exact absurd hp id
  | tagged _ _ _ => exact absurd hp id
  | sequence l => exact ⟨⟨rfl, rfl⟩, rfl, ⟨fun _ => .inl ⟨l, rfl⟩, fun _ => rfl⟩, rfl, rfl⟩
  | set l => exact ⟨⟨rfl, rfl⟩, rfl, ⟨fun _ => .inr ⟨l, rfl⟩, fun _ => rfl⟩, rfl, rfl⟩
  | _ =>
    refine ⟨⟨rfl, rfl⟩, rfl, ⟨fun h => ?_, ?_⟩, rfl, rfl⟩
    · exact absurd (show false = true from h) (by decide)
    · rintro (⟨l, h⟩ | ⟨l, h⟩) <;> simp at h

example := C60_from_obj_header_partial (.set [.fromObj .null]) trivial

/-- A well-formed content with at most `d + 1` levels, independently of any header. -/
def Spec.WfContent (D : Deps) (d : Nat) : Content → Prop
  | .enum n => n < 2 ^ 32
  | .utcTime t => D.utcTime false (D.display t) = .ok t
  | .generalizedTime t => D.generalizedTime false (D.display t) = .ok t
  | .str k s => CharsOk D k s ∧ IsUtf8 s
  | .bmpString s => IsUtf16 s
  | .sequence l | .set l => ∀ o ∈ l, Wf D d o
  | .unknown _ | .optionalNone | .optionalSome _ | .tagged _ _ _ => False
  | _ => True

theorem wf_fromObj {D : Deps} {d : Nat} {c : Content} (h : WfContent D d c) :
    Wf D (d + 1) (.fromObj c) := by
  cases c with
  | sequence l => exact .sequence _ _ _ rfl rfl rfl h
  | set l => exact .set _ _ _ rfl rfl rfl h
  | str k s =>
    cases k <;> exact .leaf _ _ _ (Nat.le_of_ble_eq_true rfl) ⟨rfl, rfl, rfl, h⟩
  | enum n => exact .leaf _ _ _ (Nat.le_of_ble_eq_true rfl) ⟨rfl, rfl, rfl, h⟩
  | utcTime t => exact .leaf _ _ _ (Nat.le_of_ble_eq_true rfl) ⟨rfl, rfl, h⟩
  | generalizedTime t => exact .leaf _ _ _ (Nat.le_of_ble_eq_true rfl) ⟨rfl, rfl, h⟩
  | bmpString s => exact .leaf _ _ _ (Nat.le_of_ble_eq_true rfl) ⟨rfl, rfl, rfl, h⟩
  | universalString s => exact .leaf _ _ _ (Nat.le_of_ble_eq_true rfl) ⟨rfl, rfl, rfl⟩
  | bitString u s => exact .leaf _ _ _ (Nat.le_of_ble_eq_true rfl) ⟨rfl, rfl, rfl⟩
  | unknown a => exact absurd h id
  | optionalNone => exact absurd h id
  | optionalSome o => exact absurd h id
  | tagged _ _ _ => exact absurd h id
  | _ => exact .leaf _ _ _ (Nat.le_of_ble_eq_true rfl) ⟨rfl, rfl⟩

/-- C60, round trip: for every well-formed content, `from_obj(c)` serializes to an element that
`parse_ber` maps to an object with the same header and content (up to the length and raw tag
fields, which Rust's `==` accepts as equal when no raw tag was stored). -/
theorem C60_from_obj_round_trip (D : Deps) (c : Content) (h : WfContent D 49 c) :
    ∃ e, toVec D (.fromObj c) = .ok e ∧ (e.length < 2 ^ 64 → ∀ rest, ∃ o',
      parseBer D (e ++ rest) = .ok (rest, o') ∧ erase o' = erase (.fromObj c) ∧
      (NoRawC c → (BerObject.fromObj c).rustEq o' = true)) := by
  obtain ⟨e, h1, h2⟩ := C46_serialize_parse D _ (wf_fromObj h)
  refine ⟨e, h1, fun hl rest => ?_⟩
  obtain ⟨o', h3, h4⟩ := h2 hl rest
  exact ⟨o', h3, h4, fun hr => rustEq_of_erase _ o' h4.symm ⟨rfl, hr⟩⟩

/-- C60: `from_int_slice`, `from_seq` and `from_set` are special cases. -/
theorem C60_special (i : Bytes) (l : List BerObject) :
    BerObject.fromIntSlice i = .fromObj (.integer i) ∧
    BerObject.fromSeq l = .fromObj (.sequence l) ∧ BerObject.fromSet l = .fromObj (.set l) :=
  ⟨rfl, rfl, rfl⟩

/-- C60 does not extend to `Tagged` and `Optional(None)`: `from_obj` then writes an element that is
read as something else. -/
theorem C60_other_contents_not_round_trip :
    toVec Tests.D0 (.fromObj (.tagged .contextSpecific 1 (.fromObj (.boolean true)))) =
      .ok [0x01, 0x03, 0x01, 0x01, 0xff] ∧
    parseBer Tests.D0 [0x01, 0x03, 0x01, 0x01, 0xff] = .err (.error .invalidLength) ∧
    toVec Tests.D0 (.fromObj .optionalNone) = .ok [0x00, 0x00] := by
  refine ⟨by decide +kernel, rfl, by decide +kernel⟩

example : WfContent Tests.D0 49 (.str .printable [0x41, 0x42]) :=
  ⟨by
    intro b hb
    simp only [List.mem_cons, List.not_mem_nil, or_false] at hb
    rcases hb with rfl | rfl <;> decide, ⟨[0x41, 0x42], by
    intro c hc
    simp only [List.mem_cons, List.not_mem_nil, or_false] at hc
    rcases hc with rfl | rfl <;> exact .inl (by decide), by decide⟩⟩

end Verif
