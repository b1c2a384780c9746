import Verif.Object
/-!
# Specifications

Small definitions, independent of the model's functions, against which the properties are
stated.  They follow the text of ITU-T X.690.
-/
namespace Verif.Spec

/-! ## Numbers -/

/-- Value of a digit string in base 256, most significant octet first. -/
def base256 : Bytes → Nat
  | [] => 0
  | b :: bs => b.toNat * 256 ^ bs.length + base256 bs

/-- Value of the seven-bit groups of octets, most significant first (X.690 8.1.2.4.2, 8.19.2). -/
def base128 : Bytes → Nat
  | [] => 0
  | b :: bs => b.toNat % 128 * 128 ^ bs.length + base128 bs

/-- Value of a bit string, most significant bit first. -/
def ofBits : List Bool → Nat
  | [] => 0
  | b :: bs => (if b then 2 ^ bs.length else 0) + ofBits bs

/-- The eight bits of an octet, most significant first. -/
def bitsOfByte (b : UInt8) : List Bool :=
  [7, 6, 5, 4, 3, 2, 1, 0].map fun k => b.toNat.testBit k

/-- The bits of an octet string. -/
def bitsOf (bs : Bytes) : List Bool := bs.flatMap bitsOfByte

/-- Two's complement value of an octet string (X.690 8.3.3): the most significant bit has
negative weight. -/
def twosComplement (bs : Bytes) : Int :=
  match bitsOf bs with
  | [] => 0
  | s :: rest => (if s then -(2 ^ rest.length : Int) else 0) + (ofBits rest : Int)

/-! ## Identifier and length octets, X.690 8.1.2 and 8.1.3 -/

/-- Class encoded in bits 8 and 7. -/
def classOf (b : UInt8) : Class :=
  if b.toNat < 64 then .universal
  else if b.toNat < 128 then .application
  else if b.toNat < 192 then .contextSpecific
  else .priv

/-- Bit 6. -/
def constructedBit (b : UInt8) : Bool := b.toNat.testBit 5

/-- Identifier octets: string, class, constructed, tag number (unbounded). -/
inductive IdentOctets : Bytes → Class → Bool → Nat → Prop
  /-- 8.1.2.2 -/
  | low (b : UInt8) : b.toNat % 32 ≠ 31 →
      IdentOctets [b] (classOf b) (constructedBit b) (b.toNat % 32)
  /-- 8.1.2.4 -/
  | high (b : UInt8) (ms : Bytes) (last : UInt8) : b.toNat % 32 = 31 →
      (∀ m ∈ ms, 128 ≤ m.toNat) → last.toNat < 128 →
      IdentOctets (b :: ms ++ [last]) (classOf b) (constructedBit b) (base128 (ms ++ [last]))

/-- Length octets, 8.1.3. -/
inductive LenOctets : Bytes → Length → Prop
  /-- 8.1.3.4 -/
  | short (b : UInt8) : b.toNat < 128 → LenOctets [b] (.definite b.toNat)
  /-- 8.1.3.5 (the first octet shall not be `ff`) -/
  | long (b : UInt8) (ds : Bytes) : 128 < b.toNat → b.toNat < 255 → ds.length = b.toNat - 128 →
      LenOctets (b :: ds) (.definite (base256 ds))
  /-- 8.1.3.6 -/
  | indefinite : LenOctets [0x80] .indefinite

/-- `hb` are identifier and length octets of a BER element, described by `h`.  The implementation
limits (five subsequent identifier octets, tag numbers modulo 2^32, lengths below 2^64) are
explicit. -/
structure BerHeader (hb : Bytes) (h : Header) : Prop where
  octets : ∃ id len num, hb = id ++ len ∧ IdentOctets id h.cls h.constructed num ∧
    LenOctets len h.length ∧ h.tag = num % 2 ^ 32 ∧ id.length ≤ 6 ∧ h.rawTag = some id
  length_lt : ∀ n, h.length = .definite n → n < 2 ^ 64
  indef_constructed : h.length = .indefinite → h.constructed = true

/-- The same for DER: no indefinite length. -/
structure DerHeader (hb : Bytes) (h : Header) : Prop extends BerHeader hb h where
  definite : h.length ≠ .indefinite

/-! ## Elements, X.690 8.1 -/

/-- Well-formed element as a byte string: identifier and length octets followed by as many
contents octets as announced, or, for the indefinite form, by well-formed elements and a
terminator satisfying `T`.  Byte strings satisfying `X` are not counted as elements: X.690 8.1.5
reserves `00 00`.  The number bounds the nesting of indefinite lengths:
a definite element has nesting 1 (its contents octets are not inspected), an
indefinite one with items of nesting `n` has nesting `n + 1`.

X.690 is the instance `T = X = IsEoc`. -/
inductive Element (T X : Bytes → Prop) : Nat → Bytes → Prop
  | definite (n l : Nat) (hb c : Bytes) (h : Header) : BerHeader hb h → h.length = .definite l →
      c.length = l → ¬ X (hb ++ c) → Element T X (n + 1) (hb ++ c)
  | indefinite (n : Nat) (hb : Bytes) (es : List Bytes) (t : Bytes) (h : Header) :
      BerHeader hb h → h.length = .indefinite → (∀ e ∈ es, Element T X (n + 1) e) → T t →
      Element T X (n + 2) (hb ++ (es.flatten ++ t))

/-- End-of-contents octets, X.690 8.1.5: two zero octets. -/
def IsEoc (t : Bytes) : Prop := t = [0, 0]

/-- What the implementation takes for end-of-contents: any header with tag number zero and
length zero, of any class, primitive or constructed, however encoded. -/
def LooseEoc (t : Bytes) : Prop :=
  ∃ h : Header, BerHeader t h ∧ h.tag = 0 ∧ h.length = .definite 0

/-- The bytes `q` end inside a high-tag-number identifier: some octet with low bits `11111`
followed only by octets with the continuation bit. -/
def CutInTag (q : Bytes) : Prop :=
  ∃ q' b ms, q = q' ++ b :: ms ∧ b.toNat % 32 = 31 ∧ ∀ m ∈ ms, 128 ≤ m.toNat

/-! ## Trees -/

mutual
/-- Nesting depth of SEQUENCE/SET in an object: a leaf has depth 1. -/
def depth : BerObject → Nat
  | .mk _ c => contentDepth c
/-- Depth of a content. -/
def contentDepth : Content → Nat
  | .sequence os => listDepth os + 1
  | .set os => listDepth os + 1
  | _ => 1
/-- Maximum of the depths of a list of objects. -/
def listDepth : List BerObject → Nat
  | [] => 0
  | o :: os => max (depth o) (listDepth os)
end

/-- `Node o' o`: `o'` is `o` or an object below `o`, going through SEQUENCE and SET. -/
inductive Node (o' : BerObject) : BerObject → Prop
  | self : Node o' o'
  | seq (h : Header) (l : List BerObject) (o : BerObject) :
      o ∈ l → Node o' o → Node o' (.mk h (.sequence l))
  | set (h : Header) (l : List BerObject) (o : BerObject) :
      o ∈ l → Node o' o → Node o' (.mk h (.set l))

/-! ## Text -/

/-- Unicode scalar value. -/
def IsScalar (c : Nat) : Prop := c < 0xD800 ∨ (0xE000 ≤ c ∧ c < 0x110000)

/-- UTF-8 encoding of a code point (RFC 3629 section 3). -/
def utf8Enc (c : Nat) : Bytes :=
  if c < 0x80 then [UInt8.ofNat c]
  else if c < 0x800 then [UInt8.ofNat (0xC0 + c / 64), UInt8.ofNat (0x80 + c % 64)]
  else if c < 0x10000 then
    [UInt8.ofNat (0xE0 + c / 4096), UInt8.ofNat (0x80 + c / 64 % 64), UInt8.ofNat (0x80 + c % 64)]
  else
    [UInt8.ofNat (0xF0 + c / 262144), UInt8.ofNat (0x80 + c / 4096 % 64),
      UInt8.ofNat (0x80 + c / 64 % 64), UInt8.ofNat (0x80 + c % 64)]

/-- Well-formed UTF-8: the encoding of a sequence of scalar values. -/
def IsUtf8 (bs : Bytes) : Prop := ∃ cs : List Nat, (∀ c ∈ cs, IsScalar c) ∧ bs = cs.flatMap utf8Enc

/-- UTF-16 encoding of a code point, as two octets per unit, most significant first. -/
def utf16Enc (c : Nat) : Bytes :=
  if c < 0x10000 then [UInt8.ofNat (c / 256), UInt8.ofNat (c % 256)]
  else
    let hi := 0xD800 + (c - 0x10000) / 1024
    let lo := 0xDC00 + (c - 0x10000) % 1024
    [UInt8.ofNat (hi / 256), UInt8.ofNat (hi % 256), UInt8.ofNat (lo / 256), UInt8.ofNat (lo % 256)]

/-- Well-formed UTF-16, big-endian. -/
def IsUtf16 (bs : Bytes) : Prop :=
  ∃ cs : List Nat, (∀ c ∈ cs, IsScalar c) ∧ bs = cs.flatMap utf16Enc

/-- Alphabets of the restricted string types, by octet value (X.680 41). -/
def alphabet : StrKind → Option (UInt8 → Prop)
  /- digits and space -/
  | .numeric => some fun b => b.toNat = 32 ∨ (48 ≤ b.toNat ∧ b.toNat ≤ 57)
  /- letters, digits, space and `' ( ) + , - . / : = ?` -/
  | .printable => some fun b =>
      (65 ≤ b.toNat ∧ b.toNat ≤ 90) ∨ (97 ≤ b.toNat ∧ b.toNat ≤ 122) ∨
      (48 ≤ b.toNat ∧ b.toNat ≤ 57) ∨ b.toNat ∈ [32, 39, 40, 41, 43, 44, 45, 46, 47, 58, 61, 63]
  | .visible => some fun b => 32 ≤ b.toNat ∧ b.toNat ≤ 127
  | .ia5 => some fun b => b.toNat ≤ 127
  | _ => none

/-! ## Which universal tag goes with which content (X.680 table 1) -/

/-- Same class, form, tag number and length. -/
def SameHeader (h h' : Header) : Prop :=
  h.cls = h'.cls ∧ h.constructed = h'.constructed ∧ h.tag = h'.tag ∧ h.length = h'.length

/-- `Agrees h c`: the content variant `c` is the one announced by the header `h`. -/
def Agrees (h : Header) : Content → Prop
  | .endOfContent => h.cls = .universal ∧ h.tag = 0
  | .boolean _ => h.cls = .universal ∧ h.tag = 1
  | .integer _ => h.cls = .universal ∧ h.tag = 2
  | .bitString _ _ => h.cls = .universal ∧ h.tag = 3
  | .octetString _ => h.cls = .universal ∧ h.tag = 4
  | .null => h.cls = .universal ∧ h.tag = 5
  | .oid _ => h.cls = .universal ∧ h.tag = 6
  | .str .objectDescriptor _ => h.cls = .universal ∧ h.tag = 7
  | .enum _ => h.cls = .universal ∧ h.tag = 10
  | .str .utf8 _ => h.cls = .universal ∧ h.tag = 12
  | .relativeOid _ => h.cls = .universal ∧ h.tag = 13
  | .sequence _ => h.cls = .universal ∧ h.tag = 16
  | .set _ => h.cls = .universal ∧ h.tag = 17
  | .str .numeric _ => h.cls = .universal ∧ h.tag = 18
  | .str .printable _ => h.cls = .universal ∧ h.tag = 19
  | .str .t61 _ => h.cls = .universal ∧ h.tag = 20
  | .str .videotex _ => h.cls = .universal ∧ h.tag = 21
  | .str .ia5 _ => h.cls = .universal ∧ h.tag = 22
  | .utcTime _ => h.cls = .universal ∧ h.tag = 23
  | .generalizedTime _ => h.cls = .universal ∧ h.tag = 24
  | .str .graphic _ => h.cls = .universal ∧ h.tag = 25
  | .str .visible _ => h.cls = .universal ∧ h.tag = 26
  | .str .general _ => h.cls = .universal ∧ h.tag = 27
  | .universalString _ => h.cls = .universal ∧ h.tag = 28
  | .bmpString _ => h.cls = .universal ∧ h.tag = 30
  /- other classes; EXTERNAL, REAL, EMBEDDED PDV, unassigned and reserved numbers -/
  | .unknown a => SameHeader a.header h ∧ (h.cls ≠ .universal ∨
      (h.tag ∈ [8, 9, 11, 14, 15, 29] ∨ 30 < h.tag))
  | .optionalNone => False
  | .optionalSome _ => False
  | .tagged _ _ _ => False

/-! ## What an element denotes -/

/-- `Framed n e h c`: the byte string `e` is one element with header `h` and contents octets `c`;
`n` bounds the nesting of indefinite lengths.  For the indefinite form the terminator is any
header with tag number and length zero and the last two octets are dropped: this is the
implementation's reading, and with the terminator `00 00` (`C61_framed_strict`) it is X.690 8.1.3.6. -/
inductive Framed (n : Nat) : Bytes → Header → Bytes → Prop
  | definite (hb c : Bytes) (h : Header) : BerHeader hb h → h.length = .definite c.length →
      Framed n (hb ++ c) h c
  | indefinite (m : Nat) (hb : Bytes) (es : List Bytes) (t : Bytes) (h : Header) : n = m + 2 →
      BerHeader hb h → h.length = .indefinite → (∀ e ∈ es, Element LooseEoc LooseEoc (m + 1) e) →
      LooseEoc t →
      Framed n (hb ++ (es.flatten ++ t)) h
        ((es.flatten ++ t).take ((es.flatten ++ t).length - 2))

/-- The charset condition of a string type: the alphabet where X.680 gives one by octets,
otherwise the external test of `Deps`. -/
def CharsOk (D : Deps) (k : StrKind) (c : Bytes) : Prop :=
  match alphabet k with
  | some P => ∀ b ∈ c, P b
  | none => k = .utf8 ∨ D.charset k c = true

/-- Universal tag numbers of the string types, X.680 table 1. -/
def strTag : StrKind → Nat
  | .objectDescriptor => 7
  | .utf8 => 12
  | .numeric => 18
  | .printable => 19
  | .t61 => 20
  | .videotex => 21
  | .ia5 => 22
  | .graphic => 25
  | .visible => 26
  | .general => 27

/-- `Leaf D h c x`: contents octets `c` under header `h` denote the non-constructed value `x`. -/
def Leaf (D : Deps) (h : Header) (c : Bytes) : Content → Prop
  | .endOfContent => h.cls = .universal ∧ h.tag = 0
  | .boolean v => h.cls = .universal ∧ h.tag = 1 ∧ h.length = .definite 1 ∧
      ∃ b, c = [b] ∧ v = decide (b ≠ 0)
  | .integer s => h.cls = .universal ∧ h.tag = 2 ∧ s = c
  | .bitString u s => h.cls = .universal ∧ h.tag = 3 ∧ h.constructed = false ∧ c = u :: s
  | .octetString s => h.cls = .universal ∧ h.tag = 4 ∧ s = c
  | .null => h.cls = .universal ∧ h.tag = 5
  | .oid s => h.cls = .universal ∧ h.tag = 6 ∧ s = c
  | .enum n => h.cls = .universal ∧ h.tag = 10 ∧ h.constructed = false ∧ n = base256 c ∧ n < 2 ^ 32
  | .relativeOid s => h.cls = .universal ∧ h.tag = 13 ∧ s = c
  | .utcTime t => h.cls = .universal ∧ h.tag = 23 ∧ D.utcTime h.constructed c = .ok t
  | .generalizedTime t => h.cls = .universal ∧ h.tag = 24 ∧ D.generalizedTime h.constructed c = .ok t
  | .universalString s => h.cls = .universal ∧ h.tag = 28 ∧ h.constructed = false ∧ s = c
  | .bmpString s => h.cls = .universal ∧ h.tag = 30 ∧ h.constructed = false ∧ s = c ∧ IsUtf16 c
  | .str k s => h.cls = .universal ∧ h.tag = strTag k ∧ h.constructed = false ∧ s = c ∧
      CharsOk D k c ∧ IsUtf8 c
  | .unknown a => a = ⟨h, c⟩ ∧ (h.cls ≠ .universal ∨ (h.tag ∈ [8, 9, 11, 14, 15, 29] ∨ 30 < h.tag))
  | .sequence _ | .set _ | .optionalNone | .optionalSome _ | .tagged _ _ _ => False

/-- One element inside a SEQUENCE or SET: its octets, header, contents octets and value. -/
structure Item where
  bytes : Bytes
  header : Header
  body : Bytes
  value : Content

/-- `Denotes D d h c x`: contents octets `c` under header `h` denote `x`, with at most `d` levels
of SEQUENCE/SET nesting. -/
inductive Denotes (D : Deps) : Nat → Header → Bytes → Content → Prop
  | leaf (d : Nat) (h : Header) (c : Bytes) (x : Content) : Leaf D h c x → Denotes D (d + 1) h c x
  | sequence (d : Nat) (h : Header) (items : List Item) : h.cls = .universal → h.tag = 16 →
      h.constructed = true → (∀ it ∈ items, Framed 50 it.bytes it.header it.body) →
      (∀ it ∈ items, Denotes D d it.header it.body it.value) →
      Denotes D (d + 1) h (items.flatMap Item.bytes)
        (.sequence (items.map fun it => .mk it.header it.value))
  | set (d : Nat) (h : Header) (items : List Item) : h.cls = .universal → h.tag = 17 →
      h.constructed = true → (∀ it ∈ items, Framed 50 it.bytes it.header it.body) →
      (∀ it ∈ items, Denotes D d it.header it.body it.value) →
      Denotes D (d + 1) h (items.flatMap Item.bytes)
        (.set (items.map fun it => .mk it.header it.value))

/-! ## DER -/

/-- Restrictions that the DER functions add to BER for contents octets `c` under the universal tag
number `tag`: BOOLEAN is `00` or `ff`; INTEGER is not empty and its first nine bits are not all
zero; BIT STRING has at most seven unused bits and these are zero; times end with `Z`.  (X.690
8.3.2, 11.1, 11.2.1, 11.7.4 and 11.8; the rule about nine ones is not there, see C29.) -/
structure DerRules (tag : Nat) (c : Bytes) : Prop where
  bool : tag = 1 → c = [0x00] ∨ c = [0xff]
  int : tag = 2 → c ≠ [] ∧ (bitsOf c).take 9 ≠ List.replicate 9 false
  bits : tag = 3 → ∀ u s, c = u :: s → u.toNat ≤ 7 ∧
    ∀ b ∈ (bitsOf s).drop (8 * s.length - u.toNat), b = false
  time : tag = 23 ∨ tag = 24 → c.getLast? = some 0x5a

/-- The external time parsers never answer with the error `UnknownTag` (which parse_der would take
for a tag that it does not know, /repo/src/der/parser.rs:572-580). -/
def TimesKnown (D : Deps) : Prop :=
  ∀ c bs t, D.utcTime c bs ≠ .error (.unknownTag t) ∧ D.generalizedTime c bs ≠ .error (.unknownTag t)

/-! ## Serialization -/

/-- A header without its length and raw tag. -/
def eraseH (h : Header) : Header := { h with length := .definite 0, rawTag := none }

mutual
/-- An object without the length and raw tag fields, at every level. -/
def erase : BerObject → BerObject
  | .mk h c => .mk (eraseH h) (eraseC c)
/-- The same for contents. -/
def eraseC : Content → Content
  | .sequence l => .sequence (eraseL l)
  | .set l => .set (eraseL l)
  | .optionalSome o => .optionalSome (erase o)
  | .tagged k t o => .tagged k t (erase o)
  | .unknown a => .unknown ⟨eraseH a.header, a.data⟩
  | c => c
/-- The same for lists. -/
def eraseL : List BerObject → List BerObject
  | [] => []
  | o :: os => erase o :: eraseL os
end

/-- Length octets of the definite form, as short as possible. -/
def MinLen (len : Bytes) (n : Nat) : Prop :=
  LenOctets len (.definite n) ∧ ∀ len', LenOctets len' (.definite n) → len.length ≤ len'.length

/-- `v` is the shortest octet string with value `n` (empty for zero). -/
def MinOctets (v : Bytes) (n : Nat) : Prop :=
  base256 v = n ∧ ∀ v', base256 v' = n → v.length ≤ v'.length

mutual
/-- `Encodes D o e`: `e` is one identifier octet for the header of `o`, the shortest length octets
for the number of contents octets, and the contents octets. -/
def Encodes (D : Deps) : BerObject → Bytes → Prop
  | .mk h c, e => ∃ b len v, e = b :: (len ++ v) ∧ IdentOctets [b] h.cls h.constructed h.tag ∧
      MinLen len v.length ∧ EncodesC D c v
/-- Contents octets.  (Enumerated values are `u64`: the remainder does nothing.) -/
def EncodesC (D : Deps) : Content → Bytes → Prop
  | .endOfContent, v => v = [0]
  | .boolean b, v => v = [if b then 0xff else 0x00]
  | .integer s, v | .octetString s, v | .oid s, v | .relativeOid s, v | .str _ s, v
  | .bmpString s, v | .universalString s, v => v = s
  | .bitString u s, v => v = u :: s
  | .null, v | .optionalNone, v => v = []
  | .enum n, v => MinOctets v (n % 2 ^ 64)
  | .utcTime t, v | .generalizedTime t, v => v = D.display t
  | .sequence l, v | .set l, v => EncodesL D l v
  | .optionalSome o, v => EncodesInner D o v
  | .tagged _ _ o, v => Encodes D o v
  | .unknown a, v => v = a.data
/-- The contents octets of an object. -/
def EncodesInner (D : Deps) : BerObject → Bytes → Prop
  | .mk _ c, v => EncodesC D c v
/-- Elements one after the other. -/
def EncodesL (D : Deps) : List BerObject → Bytes → Prop
  | [], v => v = []
  | o :: os, v => ∃ a b, v = a ++ b ∧ Encodes D o a ∧ EncodesL D os b
end

/-- Same class, form and tag number. -/
def SameKind (h h' : Header) : Prop :=
  h.cls = h'.cls ∧ h.constructed = h'.constructed ∧ h.tag = h'.tag

/-- Header and value of a well-formed leaf: the variant is the one of the universal tag, the form is
primitive where the reader wants it so, strings are valid, enumerated values fit in 32 bits, times
are read back from their written form. -/
def WfLeaf (D : Deps) (h : Header) : Content → Prop
  | .endOfContent => h.cls = .universal ∧ h.tag = 0
  | .boolean _ => h.cls = .universal ∧ h.tag = 1
  | .integer _ => h.cls = .universal ∧ h.tag = 2
  | .bitString _ _ => h.cls = .universal ∧ h.tag = 3 ∧ h.constructed = false
  | .octetString _ => h.cls = .universal ∧ h.tag = 4
  | .null => h.cls = .universal ∧ h.tag = 5
  | .oid _ => h.cls = .universal ∧ h.tag = 6
  | .enum n => h.cls = .universal ∧ h.tag = 10 ∧ h.constructed = false ∧ n < 2 ^ 32
  | .relativeOid _ => h.cls = .universal ∧ h.tag = 13
  | .utcTime t => h.cls = .universal ∧ h.tag = 23 ∧ D.utcTime h.constructed (D.display t) = .ok t
  | .generalizedTime t => h.cls = .universal ∧ h.tag = 24 ∧
      D.generalizedTime h.constructed (D.display t) = .ok t
  | .universalString _ => h.cls = .universal ∧ h.tag = 28 ∧ h.constructed = false
  | .bmpString s => h.cls = .universal ∧ h.tag = 30 ∧ h.constructed = false ∧ IsUtf16 s
  | .str k s => h.cls = .universal ∧ h.tag = strTag k ∧ h.constructed = false ∧ CharsOk D k s ∧
      IsUtf8 s
  | .unknown a => SameKind a.header h ∧ (h.cls ≠ .universal ∨ h.tag ∈ [8, 9, 11, 14, 15, 29])
  | .sequence _ | .set _ | .optionalNone | .optionalSome _ | .tagged _ _ _ => False

/-- Well-formed object tree with at most `d` levels: headers match contents, tag numbers are at
most 30.  Stored lengths and raw tags are arbitrary. -/
inductive Wf (D : Deps) : Nat → BerObject → Prop
  | leaf (d : Nat) (h : Header) (x : Content) : h.tag ≤ 30 → WfLeaf D h x → Wf D (d + 1) (.mk h x)
  | sequence (d : Nat) (h : Header) (l : List BerObject) : h.cls = .universal → h.tag = 16 →
      h.constructed = true → (∀ o ∈ l, Wf D d o) → Wf D (d + 1) (.mk h (.sequence l))
  | set (d : Nat) (h : Header) (l : List BerObject) : h.cls = .universal → h.tag = 17 →
      h.constructed = true → (∀ o ∈ l, Wf D d o) → Wf D (d + 1) (.mk h (.set l))

mutual
/-- All tag numbers that are written are at most 30 (the header inside `Optional` is not
written). -/
def TagsOk : BerObject → Prop
  | .mk h c => h.tag ≤ 30 ∧ TagsOkC c
/-- The same for contents. -/
def TagsOkC : Content → Prop
  | .sequence l | .set l => TagsOkL l
  | .optionalSome o => TagsOkInner o
  | .tagged _ _ o => TagsOk o
  | _ => True
/-- The same for an object whose header is not written. -/
def TagsOkInner : BerObject → Prop
  | .mk _ c => TagsOkC c
/-- The same for lists. -/
def TagsOkL : List BerObject → Prop
  | [] => True
  | o :: os => TagsOk o ∧ TagsOkL os
end

end Verif.Spec
