import Verif.SpecCut
/-!
# Specification of rejected input

Which byte strings are rejected, and with which error.  Written from the grammar of X.690 8.1 and the
documentation of the error codes; what is accepted is specified in `Verif.Spec` and what is incomplete in
`Verif.SpecCut`.
-/
namespace Verif.Spec

/-- Errors for the length octet `80` in BER: it needs a constructed encoding. -/
def berIndefinite (constructed : Bool) : Option BerError :=
  if constructed then none else some .constructExpected

/-- Errors for the length octet `80` in DER: it is not allowed. -/
def derIndefinite (_constructed : Bool) : Option BerError :=
  some (.derConstraintFailed .indefiniteLength)

/-- Identifier and length octets that are rejected: a tag number of more than five subsequent octets, or
one that ends with the input; the length octet `ff`; a length of 2^64 or more; an indefinite length where
`R` rejects it. -/
inductive HeaderFails (R : Bool → Option BerError) : Bytes → BerError → Prop
  | tag (b : UInt8) (rest : Bytes) : b.toNat % 32 = 31 → (∀ m ∈ rest.take 5, 128 ≤ m.toNat) →
      HeaderFails R (b :: rest) .invalidTag
  | reserved (id rest : Bytes) (cls : Class) (k : Bool) (num : Nat) : IdentOctets id cls k num →
      id.length ≤ 6 → HeaderFails R (id ++ 0xff :: rest) .invalidLength
  | huge (id ds rest : Bytes) (cls : Class) (k : Bool) (num : Nat) (b : UInt8) :
      IdentOctets id cls k num → id.length ≤ 6 → 128 < b.toNat → b.toNat < 255 →
      ds.length = b.toNat - 128 → 2 ^ 64 ≤ base256 ds →
      HeaderFails R (id ++ b :: (ds ++ rest)) .invalidLength
  | indefinite (id rest : Bytes) (cls : Class) (k : Bool) (num : Nat) (e : BerError) :
      IdentOctets id cls k num → id.length ≤ 6 → R k = some e → HeaderFails R (id ++ 0x80 :: rest) e

/-- Input whose first element cannot be delimited: its header is rejected, or it is of indefinite length
and (after any number of complete elements) one of the elements inside cannot be delimited, or the
indefinite lengths are nested too deep. -/
inductive FrameFails : Nat → Bytes → BerError → Prop
  | header (n : Nat) (q : Bytes) (e : BerError) : HeaderFails berIndefinite q e → FrameFails n q e
  | depth (hb rest : Bytes) (h : Header) : BerHeader hb h → FrameFails 0 (hb ++ rest) .berMaxDepth
  | inside (n : Nat) (hb : Bytes) (es : List Bytes) (q : Bytes) (h : Header) (e : BerError) :
      BerHeader hb h → h.length = .indefinite → (∀ x ∈ es, Element LooseEoc LooseEoc n x) →
      FrameFails n q e → FrameFails (n + 1) (hb ++ (es.flatten ++ q)) e

/-- Contents octets that are rejected whatever the depth, for a header of universal class. -/
inductive LeafFails (D : Deps) (h : Header) (c : Bytes) : BerError → Prop
  | boolean : h.tag = 1 → h.length ≠ .definite 1 → LeafFails D h c .invalidLength
  | bitStringEmpty : h.tag = 3 → c = [] → LeafFails D h c .berValueError
  | bitStringConstructed : h.tag = 3 → c ≠ [] → h.constructed = true → LeafFails D h c .unsupported
  | enumConstructed : h.tag = 10 → h.constructed = true → LeafFails D h c .constructUnexpected
  | enumLarge : h.tag = 10 → h.constructed = false → 2 ^ 32 ≤ base256 c →
      LeafFails D h c .integerTooLarge
  | stringConstructed (k : StrKind) : h.tag = strTag k → h.constructed = true →
      LeafFails D h c .unsupported
  | stringCharset (k : StrKind) : h.tag = strTag k → h.constructed = false →
      ¬ (CharsOk D k c ∧ IsUtf8 c) → LeafFails D h c .stringInvalidCharset
  | bmpConstructed : h.tag = 30 → h.constructed = true → LeafFails D h c .unsupported
  | bmpOdd : h.tag = 30 → h.constructed = false → c.length % 2 = 1 → LeafFails D h c .unsupported
  | bmpCharset : h.tag = 30 → h.constructed = false → c.length % 2 = 0 → ¬ IsUtf16 c →
      LeafFails D h c .stringInvalidCharset
  | universalConstructed : h.tag = 28 → h.constructed = true → LeafFails D h c .unsupported
  | utcTime (e : BerError) : h.tag = 23 → D.utcTime h.constructed c = .error e → LeafFails D h c e
  | generalizedTime (e : BerError) : h.tag = 24 → D.generalizedTime h.constructed c = .error e →
      LeafFails D h c e
  | primitive : h.tag = 16 ∨ h.tag = 17 → h.constructed = false → LeafFails D h c .constructExpected

/-- Contents that are rejected at depth `d`.  In a SEQUENCE or a SET the first member at fault decides: it
cannot be delimited, or it is cut by the end of the contents, or its own contents are rejected one level
down. -/
inductive ContentFails (D : Deps) : Nat → Header → Bytes → BerError → Prop
  | depth (h : Header) (c : Bytes) : ContentFails D 0 h c .berMaxDepth
  | leaf (d : Nat) (h : Header) (c : Bytes) (e : BerError) : h.cls = .universal → LeafFails D h c e →
      ContentFails D (d + 1) h c e
  | frame (d : Nat) (h : Header) (items : List Item) (q : Bytes) (e : BerError) :
      h.cls = .universal → h.tag = 16 ∨ h.tag = 17 → h.constructed = true →
      (∀ it ∈ items, Framed 50 it.bytes it.header it.body ∧ Denotes D d it.header it.body it.value) →
      q ≠ [] → FrameFails 50 q e →
      ContentFails D (d + 1) h (items.flatMap Item.bytes ++ q) e
  | cut (d : Nat) (h : Header) (items : List Item) (q : Bytes) (n : Nat) :
      h.cls = .universal → h.tag = 16 ∨ h.tag = 17 → h.constructed = true →
      (∀ it ∈ items, Framed 50 it.bytes it.header it.body ∧ Denotes D d it.header it.body it.value) →
      q ≠ [] → Cut false 50 q (.need n) →
      ContentFails D (d + 1) h (items.flatMap Item.bytes ++ q) (.incomplete (.size n))
  | member (d : Nat) (h : Header) (items : List Item) (x rest c : Bytes) (h' : Header) (e : BerError) :
      h.cls = .universal → h.tag = 16 ∨ h.tag = 17 → h.constructed = true →
      (∀ it ∈ items, Framed 50 it.bytes it.header it.body ∧ Denotes D d it.header it.body it.value) →
      Framed 50 x h' c → ContentFails D d h' c e →
      ContentFails D (d + 1) h (items.flatMap Item.bytes ++ (x ++ rest)) e

/-- Input rejected by a BER reader with `d` levels. -/
inductive Rejected (D : Deps) : Nat → Bytes → BerError → Prop
  | depth (i : Bytes) : Rejected D 0 i .berMaxDepth
  | frame (d : Nat) (i : Bytes) (e : BerError) : FrameFails 50 i e → Rejected D (d + 1) i e
  | contents (d : Nat) (x rest c : Bytes) (h : Header) (e : BerError) : Framed 50 x h c →
      ContentFails D (d + 1) h c e → Rejected D (d + 1) (x ++ rest) e

/-! ## DER -/

/-- Contents `c` of a universal type that break a rule of DER checked by the parser, and the error for it;
`k` says that the encoding is constructed. -/
inductive RuleFails (tag : Nat) (k : Bool) (c : Bytes) : BerError → Prop
  | booleanLength : tag = 1 → c.length ≠ 1 → RuleFails tag k c .invalidLength
  | booleanValue (b : UInt8) : tag = 1 → c = [b] → b ≠ 0x00 → b ≠ 0xff →
      RuleFails tag k c (.derConstraintFailed .invalidBoolean)
  | integerEmpty : tag = 2 → c = [] → RuleFails tag k c (.derConstraintFailed .integerEmpty)
  | integerZeroes : tag = 2 → (bitsOf c).take 9 = List.replicate 9 false →
      RuleFails tag k c (.derConstraintFailed .integerLeadingZeroes)
  | bitStringConstructed : tag = 3 → k = true → RuleFails tag k c (.derConstraintFailed .constructed)
  | bitStringUnused (u : UInt8) (s : Bytes) : tag = 3 → k = false → c = u :: s → 7 < u.toNat →
      RuleFails tag k c (.invalidValue 3)
  | bitStringNotZero (u : UInt8) (s : Bytes) (b : Bool) : tag = 3 → k = false → c = u :: s → u.toNat ≤ 7 →
      b ∈ (bitsOf s).drop (8 * s.length - u.toNat) → b = true →
      RuleFails tag k c (.derConstraintFailed .unusedBitsNotZero)
  | stringConstructed : (∃ s, tag = strTag s) ∨ tag = 28 ∨ tag = 30 → k = true →
      RuleFails tag k c (.derConstraintFailed .constructed)
  | time : tag = 23 ∨ tag = 24 → c.getLast? ≠ some 0x5a →
      RuleFails tag k c (.derConstraintFailed .missingTimeZone)

/-- Contents `c` of a universal type, followed by `rest`, that a DER reader rejects at depth `d`: a rule of
DER is broken; or a BIT STRING without any contents octet, where the octet after the element is taken for the
number of unused bits; or contents of 2^32 octets and more; or contents that BER rejects. -/
inductive DerFails (D : Deps) (d tag : Nat) (k : Bool) : Bytes → Bytes → BerError → Prop
  | rule (c rest : Bytes) (e : BerError) : RuleFails tag k c e → DerFails D d tag k c rest e
  | emptyBitsUnused (u : UInt8) (rest : Bytes) : tag = 3 → k = false → 7 < u.toNat →
      DerFails D d tag k [] (u :: rest) (.invalidValue 3)
  | emptyBits (u : UInt8) (rest : Bytes) : tag = 3 → k = false → u.toNat ≤ 7 →
      DerFails D d tag k [] (u :: rest) .invalidLength
  | size (c rest : Bytes) : tag ≠ 3 → (∀ e, ¬ RuleFails tag k c e) → 2 ^ 32 ≤ c.length →
      DerFails D d tag k c rest .invalidLength
  | contents (c rest : Bytes) (e : BerError) : tag ≠ 3 → (∀ e, ¬ RuleFails tag k c e) →
      c.length < 2 ^ 32 → ContentFails D d (Header.new .universal k tag (.definite c.length)) c e →
      DerFails D d tag k c rest e

/-- Input for which a DER reader asks for `n` octets more: the header is cut; contents of a class other than
universal are cut; contents of universal class are cut, where all the contents octets are asked for again;
a BIT STRING without any contents octet is at the end of the input. -/
inductive DerNeeds (d : Nat) : Bytes → Nat → Prop
  | header (i : Bytes) (n : Nat) : HeaderCut false i (.need n) → DerNeeds d i n
  | foreign (hb c : Bytes) (h : Header) (l : Nat) : DerHeader hb h → h.length = .definite l → l < 2 ^ 32 →
      h.cls ≠ .universal → 0 < d → c.length < l → DerNeeds d (hb ++ c) (l - c.length)
  | universal (hb c : Bytes) (h : Header) (l : Nat) : DerHeader hb h → h.length = .definite l → l < 2 ^ 32 →
      h.cls = .universal → c.length < l → DerNeeds d (hb ++ c) l
  | emptyBits (hb : Bytes) (h : Header) : DerHeader hb h → h.length = .definite 0 → h.cls = .universal →
      h.tag = 3 → h.constructed = false → DerNeeds d hb 1

/-- Input rejected by a DER reader with `d` levels. -/
inductive DerRejected (D : Deps) (d : Nat) : Bytes → BerError → Prop
  | header (i : Bytes) (e : BerError) : HeaderFails derIndefinite i e → DerRejected D d i e
  | size (hb rest : Bytes) (h : Header) (l : Nat) : DerHeader hb h → h.length = .definite l → 2 ^ 32 ≤ l →
      DerRejected D d (hb ++ rest) .invalidLength
  | depth (hb rest : Bytes) (h : Header) (l : Nat) : DerHeader hb h → h.length = .definite l → l < 2 ^ 32 →
      h.cls ≠ .universal → d = 0 → DerRejected D d (hb ++ rest) .berMaxDepth
  | contents (hb c rest : Bytes) (h : Header) (e : BerError) : DerHeader hb h →
      h.length = .definite c.length → c.length < 2 ^ 32 → h.cls = .universal →
      DerFails D d h.tag h.constructed c rest e → (∀ t, e ≠ .unknownTag t) →
      DerRejected D d (hb ++ (c ++ rest)) e

/-! ## Functions for one type -/

/-- Input for which the BER reader for the tag number `tag` asks for `n` octets more.  All contents octets of a
definite length are asked for again; inside an indefinite length only the missing ones. -/
inductive TypedNeeds (tag : Nat) : Bytes → Nat → Prop
  | header (i : Bytes) (n : Nat) : HeaderCut false i (.need n) → TypedNeeds tag i n
  | definite (hb c : Bytes) (h : Header) (l : Nat) : BerHeader hb h → h.tag = tag → h.length = .definite l →
      l < 2 ^ 32 → c.length < l → TypedNeeds tag (hb ++ c) l
  | indefinite (hb rest : Bytes) (h : Header) (n : Nat) : BerHeader hb h → h.tag = tag →
      h.length = .indefinite → Cut false 50 (hb ++ rest) (.need n) → TypedNeeds tag (hb ++ rest) n

/-- Input rejected by the BER reader for the tag number `tag`. -/
inductive TypedRejected (D : Deps) (tag : Nat) : Bytes → BerError → Prop
  | header (i : Bytes) (e : BerError) : HeaderFails berIndefinite i e → TypedRejected D tag i e
  | tag (hb rest : Bytes) (h : Header) : BerHeader hb h → h.tag ≠ tag →
      TypedRejected D tag (hb ++ rest) (.unexpectedTag (some tag) h.tag)
  | size (hb rest : Bytes) (h : Header) (l : Nat) : BerHeader hb h → h.tag = tag → h.length = .definite l →
      2 ^ 32 ≤ l → TypedRejected D tag (hb ++ rest) .invalidLength
  | frame (hb rest : Bytes) (h : Header) (e : BerError) : BerHeader hb h → h.tag = tag →
      h.length = .indefinite → FrameFails 50 (hb ++ rest) e → TypedRejected D tag (hb ++ rest) e
  | contents (x rest c : Bytes) (h : Header) (e : BerError) : Framed 50 x h c → h.tag = tag →
      (∀ l, h.length = .definite l → l < 2 ^ 32) →
      ContentFails D 50 (Header.new .universal h.constructed h.tag h.length) c e →
      TypedRejected D tag (x ++ rest) e

/-- Input for which the DER reader for the tag number `tag` asks for `n` octets more. -/
inductive DerTypedNeeds (tag : Nat) : Bytes → Nat → Prop
  | header (i : Bytes) (n : Nat) : HeaderCut false i (.need n) → DerTypedNeeds tag i n
  | contents (hb c : Bytes) (h : Header) (l : Nat) : DerHeader hb h → h.tag = tag → h.length = .definite l →
      c.length < l → DerTypedNeeds tag (hb ++ c) l
  | emptyBits (hb : Bytes) (h : Header) : DerHeader hb h → h.tag = tag → h.length = .definite 0 →
      tag = 3 → h.constructed = false → DerTypedNeeds tag hb 1

/-- Input rejected by the DER reader for the tag number `tag`. -/
inductive DerTypedRejected (D : Deps) (tag : Nat) : Bytes → BerError → Prop
  | header (i : Bytes) (e : BerError) : HeaderFails derIndefinite i e → DerTypedRejected D tag i e
  | tag (hb rest : Bytes) (h : Header) : DerHeader hb h → h.tag ≠ tag →
      DerTypedRejected D tag (hb ++ rest) (.unexpectedTag (some tag) h.tag)
  | contents (hb c rest : Bytes) (h : Header) (e : BerError) : DerHeader hb h → h.tag = tag →
      h.length = .definite c.length → DerFails D 50 h.tag h.constructed c rest e →
      DerTypedRejected D tag (hb ++ (c ++ rest)) e

end Verif.Spec
