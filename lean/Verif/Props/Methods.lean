import Verif.Methods
import Verif.Props.Api
/-!
# Methods of BerObject: C75
-/
namespace Verif
open Outcome Spec

/-! ## C75 -/

/-- C75: `set_raw_tag` replaces the stored identifier octets and nothing else. -/
theorem C75_set_raw_tag (h : Header) (c : Content) (raw : Option Bytes) :
    (BerObject.fromHeaderAndContent h c).setRawTag raw =
      BerObject.fromHeaderAndContent ⟨h.cls, h.constructed, h.tag, h.length, raw⟩ c := rfl

/-- C75: an object built from a header and a content has exactly these, also if they do not fit together. -/
theorem C75_from_header_and_content (h : Header) (c : Content) :
    let o := BerObject.fromHeaderAndContent h c
    o.header = h ∧ o.content = c ∧ o.cls = h.cls ∧ o.tag = h.tag ∧ o.length = h.length ∧
      o.isConstructed = h.constructed := ⟨rfl, rfl, rfl, rfl, rfl, rfl⟩

/-- C75: the accessors of an object are those of its content: they look at the stored value, not at the
header. -/
theorem C75_accessors (h : Header) (c : Content) :
    let o := BerObject.fromHeaderAndContent h c
    (∀ b, o.asBool = .ok b ↔ c = .boolean b) ∧
    (∀ s, o.asOid = .ok s ↔ c = .oid s ∨ c = .relativeOid s) ∧
    (∀ s, o.asOidVal = .ok s ↔ c = .oid s ∨ c = .relativeOid s) ∧
    (∀ x, o.asOptional = .ok x ↔
      (x = none ∧ c = .optionalNone) ∨ ∃ p, x = some p ∧ c = .optionalSome p) ∧
    (∀ k t p, o.asTagged = .ok (k, t, p) ↔ c = .tagged k t p) ∧
    (∀ s, o.asBitstring = .ok s ↔ ∃ u, c = .bitString u s) ∧
    (∀ s, o.asBitstringRef = .ok s ↔ ∃ u, c = .bitString u s) ∧
    (∀ l, o.asSequence = .ok l ↔ c = .sequence l) ∧
    (∀ l, o.asSet = .ok l ↔ c = .set l) ∧
    (∀ s, o.asStr = .ok s ↔ ∃ k, c = .str k s) ∧
    (∀ s, o.asSlice = .ok s ↔ (∃ k, c = .str k s) ∨ c = .integer s ∨ (∃ u, c = .bitString u s) ∨
      c = .octetString s ∨ c = .bmpString s ∨ c = .universalString s ∨ ∃ h, c = .unknown ⟨h, s⟩) ∧
    (∀ l, o.asBitslice = .ok l ↔ ∃ s, o.asSlice = .ok s ∧ l = bitsOf s) := by
  obtain ⟨h1, h2, h3, h4, h5, h6, h7, h8, h9⟩ := C65_accessors_ok c
  exact ⟨h1, h2, h2, h3, h4, h5, h5, h6, h7, h8, h9, C67_bitslice_of_slice c⟩

/-- C75: exactly one of the four class tests holds; an object is either primitive or constructed. -/
theorem C75_queries (o : BerObject) :
    ((o.isUniversal, o.isApplication, o.isContextspecific, o.isPrivate) ∈
      [(true, false, false, false), (false, true, false, false), (false, false, true, false),
        (false, false, false, true)]) ∧
    (o.isUniversal = true ↔ o.cls = .universal) ∧ (o.isApplication = true ↔ o.cls = .application) ∧
    (o.isContextspecific = true ↔ o.cls = .contextSpecific) ∧ (o.isPrivate = true ↔ o.cls = .priv) ∧
    o.isPrimitive = !o.isConstructed := by
  unfold BerObject.isUniversal BerObject.isApplication BerObject.isContextspecific BerObject.isPrivate
    BerObject.cls BerObject.isPrimitive BerObject.isConstructed
  generalize o.header.constructed = k
  cases o.header.cls <;> decide +revert

/-- C75: the assertions succeed exactly when the query agrees, and name what was expected and found. -/
theorem C75_asserts (o : BerObject) (c : Class) (t : Nat) :
    o.assertClass c = (if o.cls = c then .ok () else .err (.unexpectedClass (some c) o.cls)) ∧
    o.assertTag t = (if o.tag = t then .ok () else .err (.unexpectedTag (some t) o.tag)) ∧
    o.assertConstructed = (if o.isConstructed then .ok () else .err .constructExpected) ∧
    o.assertPrimitive = (if o.isPrimitive then .ok () else .err .constructUnexpected) := by
  refine ⟨rfl, rfl, rfl, ?_⟩
  unfold BerObject.assertPrimitive Header.assertPrimitive BerObject.isPrimitive
  cases o.header.constructed <;> rfl

/-- What the first octet of an element tells about the object. -/
def Spec.FirstOctet (b : UInt8) (o : BerObject) : Prop :=
  (o.isUniversal = true ↔ b.toNat < 64) ∧ (o.isApplication = true ↔ 64 ≤ b.toNat ∧ b.toNat < 128) ∧
    (o.isContextspecific = true ↔ 128 ≤ b.toNat ∧ b.toNat < 192) ∧
    (o.isPrivate = true ↔ 192 ≤ b.toNat) ∧ (o.isConstructed = true ↔ 32 ≤ b.toNat % 64) ∧
    (b.toNat % 32 ≠ 31 → o.tag = b.toNat % 32)

theorem firstOctet {hb rest : Bytes} {o : BerObject} (H : BerHeader hb o.header) :
    ∃ b i', hb ++ rest = b :: i' ∧ FirstOctet b o := by
  obtain ⟨id, len, num, rfl, hid, -, ht, -, -⟩ := H.octets
  have hcls : ∀ b : UInt8, o.header.cls = classOf b → o.header.constructed = constructedBit b →
      (b.toNat % 32 ≠ 31 → o.header.tag = b.toNat % 32) → FirstOctet b o := by
    intro b h1 h2 h3
    have hb := b.toNat_lt
    unfold FirstOctet BerObject.isUniversal BerObject.isApplication BerObject.isContextspecific
      BerObject.isPrivate BerObject.isConstructed BerObject.tag
    rw [h1, h2]
    refine ⟨?_, ?_, ?_, ?_, ?_, h3⟩
    · unfold classOf; (repeat' split) <;> simp <;> omega
    · unfold classOf; (repeat' split) <;> simp <;> omega
    · unfold classOf; (repeat' split) <;> simp <;> omega
    · unfold classOf; (repeat' split) <;> simp <;> omega
    · unfold constructedBit
      rw [Nat.testBit_eq_decide_div_mod_eq]
      simp
      omega
  generalize hc : o.header.cls = cls at hid
  generalize hk : o.header.constructed = k at hid
  cases hid with
  | low b hb =>
    refine ⟨b, _, rfl, hcls b hc hk fun _ => ?_⟩
    rw [ht]
    have := b.toNat_lt
    omega
  | high b ms last hb _ _ => exact ⟨b, _, rfl, hcls b hc hk fun h => absurd hb h⟩

/-- C75: for an object returned by `parse_ber` or a typed BER parser, and for every DER one, the answers of
the queries are those of the first octet of the input. -/
theorem C75_parsed (D : Deps) (i rem : Bytes) (o : BerObject)
    (h : (∃ d, parseBerRecursive D d i = .ok (rem, o)) ∨ (∃ t, parseBerWithTag D t i = .ok (rem, o)) ∨
      (∃ d, parseDerRecursive D d i = .ok (rem, o)) ∨ ∃ t, parseDerWithTag D t i = .ok (rem, o)) :
    ∃ b i', i = b :: i' ∧ FirstOctet b o := by
  have hF : ∀ e c, Framed 50 e o.header c → ∃ b i', e ++ rem = b :: i' ∧ FirstOctet b o := by
    intro e c hF
    generalize hh : o.header = hd at hF
    cases hF with
    | definite hb _ _ H _ => rw [List.append_assoc]; exact firstOctet (by rw [hh]; exact H)
    | indefinite m hb es t _ _ H => rw [List.append_assoc]; exact firstOctet (by rw [hh]; exact H)
  have hDer : ReturnedDer D i rem o → ∃ b i', i = b :: i' ∧ FirstOctet b o := by
    intro h
    obtain ⟨hb, c, rfl, H, -⟩ := returnedDer_ok h
    rw [List.append_assoc]
    exact firstOctet H.toBerHeader
  rcases h with ⟨d, h⟩ | ⟨t, h⟩ | ⟨d, h⟩ | ⟨t, h⟩
  · obtain ⟨e, c, rfl, h1, -⟩ := (C61_parse_ber_exact D d i rem o).1 h
    exact hF e c h1
  · obtain ⟨e, c, rfl, h1, -⟩ := (C61_parse_ber_with_tag D t i rem o).1 h
    exact hF e c h1
  · exact hDer (.inl ⟨d, h⟩)
  · exact hDer (.inr ⟨t, h⟩)

example := C75_parsed Tests.D0 [0xbf, 0x81, 0x01, 0x00, 9] [9] _ (.inl ⟨50, rfl⟩)

/-- C75: the same for every object inside a returned one, with the first octet of its element. -/
theorem C75_parsed_nodes (D : Deps) (i rem : Bytes) (o o' : BerObject) (hr : Returned D i rem o)
    (hn : Node o' o) : ∃ pre b post, i = pre ++ b :: post ++ rem ∧ FirstOctet b o' := by
  obtain ⟨pre, e, post, c, rfl, hF, -⟩ := returned_node hr hn
  have : ∃ b i', e ++ post = b :: i' ∧ FirstOctet b o' := by
    generalize hh : o'.header = hd at hF
    cases hF with
    | definite hb _ _ H _ => rw [List.append_assoc]; exact firstOctet (by rw [hh]; exact H)
    | indefinite m hb es t _ _ H => rw [List.append_assoc]; exact firstOctet (by rw [hh]; exact H)
  obtain ⟨b, i', h1, h2⟩ := this
  exact ⟨pre, b, i', by rw [← h1]; simp, h2⟩

example := C75_parsed_nodes Tests.D0 [0x30, 0x03, 0x02, 0x01, 0x05, 9] [9] _
  (.mk ⟨.universal, false, 2, .definite 1, some [2]⟩ (.integer [5])) (returned_ber rfl) (.seq _ _ _ (List.mem_singleton.2 rfl) .self)

/-- C75: an object built from a content answers with the content's tag, universal class, and is
constructed exactly with the tag numbers of SEQUENCE and SET. -/
theorem C75_of_content (c : Content) :
    (BerObject.ofContent c).content = c ∧ (BerObject.ofContent c).isUniversal = true ∧
      (BerObject.ofContent c).tag = c.tag ∧ (BerObject.ofContent c).length = .definite 0 ∧
      ((BerObject.ofContent c).isConstructed = true ↔ c.tag = 16 ∨ c.tag = 17) := by
  refine ⟨rfl, rfl, rfl, rfl, ?_⟩
  unfold BerObject.ofContent BerObject.isConstructed BerObject.fromObj
  simp only [BerObject.header, Header.new, Tag.sequence, Tag.set]
  exact decide_eq_true_iff

/-- C75: an object identifier becomes a primitive universal object of tag 6, and is found in it again. -/
theorem C75_of_oid (s : Bytes) :
    BerObject.ofOid s = .mk ⟨.universal, false, 6, .definite 0, none⟩ (.oid s) ∧
      (BerObject.ofOid s).asOid = .ok s ∧ BerObject.ofOid s = BerObject.ofContent (.oid s) := by
  refine ⟨?_, rfl, rfl⟩
  rfl

/-- C75: the octets of `AsRef` are those the accessors give. -/
theorem C75_as_ref (h : Header) (u : UInt8) (s d : Bytes)
    (hd : (BerObject.fromHeaderAndContent h (.bitString u s)).asBitstring = .ok d) :
    bitStringAsRef d = s ∧ (BerObject.fromHeaderAndContent h (.bitString u s)).asSlice = .ok s := by
  refine ⟨?_, rfl⟩
  exact (ok.inj hd).symm

example : ∃ o, parseBer Tests.D0 [0xbf, 0x81, 0x01, 0x00] = .ok ([], o) ∧ o.isContextspecific = true ∧
    o.isConstructed = true ∧ o.tag = 129 ∧ o.assertTag 5 = .err (.unexpectedTag (some 5) 129) :=
  ⟨_, rfl, by decide, by decide, by decide, by decide⟩

end Verif
