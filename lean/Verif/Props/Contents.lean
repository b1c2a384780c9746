import Verif.Lemmas.Returned
import Verif.Tests
/-!
# Contents of returned objects: C24 to C27, C61, C62
-/
namespace Verif
open Outcome Spec

/-- `Returned` is inhabited by every object parser; used by the examples below. -/
theorem returned_ber {D : Deps} {i rem : Bytes} {o : BerObject} (h : parseBer D i = .ok (rem, o)) :
    Returned D i rem o := .inl ⟨_, h⟩

/-! ## C61: exactness of parse_ber -/

/-- C61: `parse_ber` (at any depth limit) succeeds with remainder `rem` and object `o` exactly when
the input is an element followed by `rem`, and the contents octets denote the content of `o`. -/
theorem C61_parse_ber_exact (D : Deps) (d : Nat) (i rem : Bytes) (o : BerObject) :
    parseBerRecursive D d i = .ok (rem, o) ↔
      ∃ e c, i = e ++ rem ∧ Framed 50 e o.header c ∧ Denotes D d o.header c o.content :=
  parseBerRecursive_iff

/-- C61 for `parse_ber`. -/
theorem C61_parse_ber (D : Deps) (i rem : Bytes) (o : BerObject) :
    parseBer D i = .ok (rem, o) ↔
      ∃ e c, i = e ++ rem ∧ Framed 50 e o.header c ∧ Denotes D 50 o.header c o.content :=
  parseBerRecursive_iff

/-- C61 for the typed functions `parse_ber_xxx`: the class is not looked at, the content is read
under the universal tag. -/
theorem C61_parse_ber_with_tag (D : Deps) (tag : Nat) (i rem : Bytes) (o : BerObject) :
    parseBerWithTag D tag i = .ok (rem, o) ↔
      ∃ e c, i = e ++ rem ∧ Framed 50 e o.header c ∧ o.header.tag = tag ∧
        (∀ L, o.header.length = .definite L → L ≤ 4294967295) ∧
        Denotes D 50 (Header.new .universal o.header.constructed o.header.tag o.header.length) c
          o.content :=
  parseBerWithTag_iff

example := (C61_parse_ber_with_tag Tests.D0 2 [0x82, 0x01, 0x05, 9] [9] _).1 rfl

/-- C61: elements that X.690 allows: with the terminator `00 00` the contents octets of an
indefinite element are the concatenation of the inner elements. -/
theorem C61_framed_strict (m : Nat) (hb : Bytes) (es : List Bytes) (h : Header)
    (H : BerHeader hb h) (hl : h.length = .indefinite)
    (hes : ∀ e ∈ es, Element LooseEoc LooseEoc (m + 1) e) :
    Framed (m + 2) (hb ++ (es.flatten ++ [0, 0])) h es.flatten := by
  have := Framed.indefinite (n := m + 2) m hb es [0, 0] h rfl H hl hes ⟨_, eocHeader, rfl, rfl⟩
  simpa using this

/-- `30 80 (05 00) 00 00`. -/
example := C61_framed_strict 2 [0x30, 0x80] [[0x05, 0x00]] _ (berHeader_read rfl) rfl (by
  simp only [List.forall_mem_cons, List.not_mem_nil, false_imp_iff, implies_true, and_true]
  exact element_null)

/-- C61: the denotation is unique, so the specification itself describes a partial function. -/
theorem C61_denotation_unique (D : Deps) (d : Nat) (e e' : Bytes) (x x' : Bytes) (h h' : Header)
    (c c' : Bytes) (v v' : Content) (he : e ++ x = e' ++ x') (hF : Framed 50 e h c)
    (hF' : Framed 50 e' h' c') (hD : Denotes D d h c v) (hD' : Denotes D d h' c' v') :
    x = x' ∧ h = h' ∧ v = v' := by
  have h1 : parseBerRecursive D d (e ++ x) = .ok (x, .mk h v) :=
    parseBerRecursive_iff.2 ⟨e, c, rfl, hF, hD⟩
  have h2 : parseBerRecursive D d (e ++ x) = .ok (x', .mk h' v') := by
    rw [he]; exact parseBerRecursive_iff.2 ⟨e', c', rfl, hF', hD'⟩
  rw [h1] at h2
  simp only [ok.injEq, Prod.mk.injEq, BerObject.mk.injEq] at h2
  exact h2

/-! A nested example: `30 80 (02 01 05) (31 02 05 00) 00 00`. -/

example : parseBer Tests.D0 [0x30, 0x80, 0x02, 0x01, 0x05, 0x31, 0x02, 0x05, 0x00, 0, 0, 0xaa] =
    .ok ([0xaa], .mk ⟨.universal, true, 16, .indefinite, some [0x30]⟩ (.sequence
      [.mk ⟨.universal, false, 2, .definite 1, some [2]⟩ (.integer [5]),
       .mk ⟨.universal, true, 17, .definite 2, some [0x31]⟩ (.set
        [.mk ⟨.universal, false, 5, .definite 0, some [5]⟩ .null])])) := rfl

/-! ## C62: provenance of nodes -/

/-- C62: every node of the tree returned by `parse_ber` is what one contiguous piece of the
consumed bytes denotes, with the header of that piece, at a depth within the limit. -/
theorem C62_nodes_from_input (D : Deps) (d : Nat) (i rem : Bytes) (o o' : BerObject)
    (h : parseBerRecursive D d i = .ok (rem, o)) (hn : Node o' o) :
    ∃ pre e post c d', i = pre ++ e ++ post ++ rem ∧ Framed 50 e o'.header c ∧ d' ≤ d ∧
      Denotes D d' o'.header c o'.content := by
  obtain ⟨e, c, rfl, hF, hD⟩ := parseBerRecursive_iff.1 h
  rcases denotes_node hn hD with rfl | ⟨pre, e', post, c', d', rfl, hF', hd, hD'⟩
  · exact ⟨[], e, [], c, d, by simp, hF, Nat.le_refl _, hD⟩
  · obtain ⟨hb, post', _, rfl, _⟩ := framed_infix hF
    exact ⟨hb ++ pre, e', post ++ post', c', d', by simp, hF', by omega, hD'⟩

/-- C62: hence a node parses on its own: `parse_ber` on that piece gives the same node and consumes
it all. -/
theorem C62_nodes_reparse (D : Deps) (d : Nat) (i rem : Bytes) (o o' : BerObject)
    (h : parseBerRecursive D d i = .ok (rem, o)) (hn : Node o' o) :
    ∃ pre e post d', i = pre ++ e ++ post ++ rem ∧ d' ≤ d ∧
      parseBerRecursive D d' e = .ok ([], o') := by
  obtain ⟨pre, e, post, c, d', h1, h2, h3, h4⟩ := C62_nodes_from_input D d i rem o o' h hn
  exact ⟨pre, e, post, d', h1, h3, parseBerRecursive_iff.2 ⟨e, c, by simp, h2, h4⟩⟩

example : ∃ o, parseBer Tests.D0 [0x30, 0x03, 0x02, 0x01, 0x05] = .ok ([], o) ∧
    Node (.mk ⟨.universal, false, 2, .definite 1, some [2]⟩ (.integer [5])) o :=
  ⟨_, rfl, .seq _ _ _ (List.mem_singleton.2 rfl) .self⟩

/-! ## C24 -/

/-- C24: a string node in an object returned by any parser stands for a primitive element of the
consumed bytes with the tag of its type; `as_slice` and `as_str` are exactly its contents octets,
which are well-formed UTF-8 and in the alphabet of the type. -/
theorem C24_strings (D : Deps) (i rem : Bytes) (o o' : BerObject) (k : StrKind) (s : Bytes)
    (hr : Returned D i rem o) (hn : Node o' o) (hs : o'.content = .str k s) :
    (∃ pre hb post, i = pre ++ (hb ++ s) ++ post ++ rem ∧ BerHeader hb o'.header ∧
      o'.header.constructed = false ∧ o'.header.tag = strTag k ∧
      o'.header.length = .definite s.length) ∧
    o'.content.asSlice = .ok s ∧ o'.content.asStr = .ok s ∧ IsUtf8 s ∧
    (∀ P, alphabet k = some P → ∀ b ∈ s, P b) := by
  obtain ⟨pre, e, post, c, h1, h2, h3 | ⟨hd, d, e1, e2, e3, hD⟩⟩ := returned_node hr hn
  · rw [hs] at h3; simp at h3
  · have hL : Leaf D hd c (.str k s) := by
      rw [hs] at hD
      generalize hx : Content.str k s = x at hD
      cases hD with
      | leaf _ _ _ _ hL => subst hx; exact hL
      | sequence => simp at hx
      | set => simp at hx
    obtain ⟨_, l2, l3, rfl, l5, l6⟩ := hL
    obtain ⟨hb, H, rfl, hl⟩ := framed_primitive h2 (by rw [← e1]; exact l3)
    refine ⟨⟨pre, hb, post, h1, H, by rw [← e1]; exact l3, by rw [← e2]; exact l2, hl⟩, ?_, ?_, l6,
      ?_⟩
    · rw [hs]; rfl
    · rw [hs]; rfl
    · intro P hP
      unfold CharsOk at l5
      rw [hP] at l5
      exact l5

example := C24_strings Tests.D0 [0x30, 0x05, 0x13, 0x03, 0x61, 0x62, 0x63, 9] [9] _
  (.mk ⟨.universal, false, 19, .definite 3, some [0x13]⟩ (.str .printable [0x61, 0x62, 0x63])) _ _
  (returned_ber (by rfl)) (.seq _ _ _ (List.mem_singleton.2 rfl) .self) rfl

/-- C24, acceptance: `parse_ber` accepts an element with the universal tag of a string type exactly
when it is primitive, in the alphabet and well-formed UTF-8. -/
theorem C24_accept_iff (D : Deps) (e c rest : Bytes) (h : Header) (k : StrKind)
    (hF : Framed 50 e h c) (hcls : h.cls = .universal) (ht : h.tag = strTag k) :
    (∃ o, parseBer D (e ++ rest) = .ok (rest, o)) ↔
      h.constructed = false ∧ CharsOk D k c ∧ IsUtf8 c := by
  constructor
  · rintro ⟨o, ho⟩
    obtain ⟨e', c', he, hF', hD⟩ := parseBerRecursive_iff.1 ho
    have hee : e = e' := List.append_cancel_right he
    subst hee
    have a1 : anyFromBer (e ++ []) = .ok ([], ⟨h, c⟩) := anyFromBer_framed.2 ⟨e, rfl, hF⟩
    have a2 : anyFromBer (e ++ []) = .ok ([], ⟨o.header, c'⟩) := anyFromBer_framed.2 ⟨e, rfl, hF'⟩
    rw [a1] at a2
    simp only [ok.injEq, Prod.mk.injEq, Any.mk.injEq, true_and] at a2
    obtain ⟨rfl, rfl⟩ := a2
    generalize o.content = x at hD
    cases hD with
    | leaf d h' c' x hL =>
      cases x with
      | str k' s =>
        obtain ⟨_, l2, l3, rfl, l5, l6⟩ := hL
        have : k' = k := by
          rw [ht] at l2
          cases k <;> cases k' <;> simp [strTag] at l2 <;> rfl
        subst this
        exact ⟨l3, l5, l6⟩
      | unknown a =>
        obtain ⟨_, hL⟩ := hL
        rw [ht] at hL
        rcases hL with hL | hL
        · exact absurd hcls hL
        · cases k <;> simp [strTag] at hL
      | _ => cases k <;> simp [Leaf, ht, strTag] at hL
    | sequence _ _ _ _ h2 => rw [ht] at h2; cases k <;> simp [strTag] at h2
    | set _ _ _ _ h2 => rw [ht] at h2; cases k <;> simp [strTag] at h2
  · rintro ⟨h1, h2, h3⟩
    exact ⟨.mk h (.str k c), parseBerRecursive_iff.2
      ⟨e, c, rfl, hF, .leaf _ _ _ _ ⟨hcls, ht, h1, rfl, h2, h3⟩⟩⟩

-- `13 03 61 62 63` is the PrintableString "abc"; `*` is not in the alphabet
example : Returned Tests.D0 [0x13, 0x03, 0x61, 0x62, 0x63] []
    (.mk ⟨.universal, false, 19, .definite 3, some [0x13]⟩ (.str .printable [0x61, 0x62, 0x63])) :=
  returned_ber (by rfl)
example : ∃ P, alphabet .printable = some P ∧ P 0x61 ∧ ¬ P 0x2a := by
  refine ⟨_, rfl, ?_, ?_⟩ <;> decide
example : parseBer Tests.D0 [0x13, 0x01, 0x2a] = .err (.error .stringInvalidCharset) := rfl

/-! ## C25 -/

/-- C25: an element with universal tag 30 is accepted by `parse_ber` exactly when it is primitive
and its contents octets are well-formed big-endian UTF-16. -/
theorem C25_bmp_accept_iff (D : Deps) (e c rest : Bytes) (h : Header)
    (hF : Framed 50 e h c) (hcls : h.cls = .universal) (ht : h.tag = 30) (o : BerObject) :
    parseBer D (e ++ rest) = .ok (rest, o) ↔
      o = .mk h (.bmpString c) ∧ h.constructed = false ∧ IsUtf16 c := by
  constructor
  · intro ho
    obtain ⟨e', c', he, hF', hD⟩ := parseBerRecursive_iff.1 ho
    have hee : e = e' := List.append_cancel_right he
    subst hee
    have a1 : anyFromBer (e ++ []) = .ok ([], ⟨h, c⟩) := anyFromBer_framed.2 ⟨e, rfl, hF⟩
    have a2 : anyFromBer (e ++ []) = .ok ([], ⟨o.header, c'⟩) := anyFromBer_framed.2 ⟨e, rfl, hF'⟩
    rw [a1] at a2
    simp only [ok.injEq, Prod.mk.injEq, Any.mk.injEq, true_and] at a2
    obtain ⟨rfl, rfl⟩ := a2
    obtain ⟨hh, x⟩ := o
    simp only [BerObject.header_mk, BerObject.content_mk] at hD hcls ht ⊢
    cases hD with
    | leaf d h' c' x hL =>
      cases x with
      | bmpString s =>
        obtain ⟨_, l2, l3, rfl, l5⟩ := hL
        exact ⟨rfl, l3, l5⟩
      | str k s =>
        obtain ⟨_, l2, _⟩ := hL
        rw [ht] at l2
        cases k <;> simp [strTag] at l2
      | unknown a =>
        obtain ⟨_, hL⟩ := hL
        simp [ht, hcls] at hL
      | _ => simp [Leaf, ht] at hL
    | sequence _ _ _ _ h2 => omega
    | set _ _ _ _ h2 => omega
  · rintro ⟨rfl, h1, h2⟩
    exact parseBerRecursive_iff.2 ⟨e, c, rfl, hF, .leaf _ _ _ _ ⟨hcls, ht, h1, rfl, h2⟩⟩

example := (C25_bmp_accept_iff Tests.D0 [0x1e, 0x04, 0xd8, 0x3d, 0xde, 0x00] _ [9] _ (framed_read rfl) rfl rfl _).1 rfl

theorem utf16Enc_length (c : Nat) : (utf16Enc c).length % 2 = 0 := by
  unfold utf16Enc
  split <;> simp

/-- C25: in particular the length is even. -/
theorem C25_even (c : Bytes) (h : IsUtf16 c) : c.length % 2 = 0 := by
  obtain ⟨cs, hs, rfl⟩ := h
  induction cs with
  | nil => rfl
  | cons a cs ih =>
    have h1 := utf16Enc_length a
    have h2 : (cs.flatMap utf16Enc).length % 2 = 0 := ih (fun x hx => hs x (by simp [hx]))
    rw [List.flatMap_cons, List.length_append]
    omega

example := C25_even [0xd8, 0x3d, 0xde, 0x00] ⟨[0x1F600], by simp [IsScalar], by decide⟩

/-- C25: in particular surrogates are paired: well-formed UTF-16 does not contain, at a unit
boundary, a trailing surrogate without leading one at the start, and a leading surrogate is
followed by a trailing one. -/
theorem C25_surrogates (a b : UInt8) (rest : Bytes) (h : IsUtf16 (a :: b :: rest)) :
    ¬ (0xDC ≤ a.toNat ∧ a.toNat < 0xE0) ∧
    ((0xD8 ≤ a.toNat ∧ a.toNat < 0xDC) → ∃ a' b' rest', rest = a' :: b' :: rest' ∧
      0xDC ≤ a'.toNat ∧ a'.toNat < 0xE0 ∧ IsUtf16 rest') ∧
    ((a.toNat < 0xD8 ∨ 0xE0 ≤ a.toNat) → IsUtf16 rest) := by
  obtain ⟨cs, hs, he⟩ := h
  cases cs with
  | nil => simp at he
  | cons c cs =>
    have hc := hs c (by simp)
    rw [List.flatMap_cons] at he
    unfold utf16Enc at he
    split at he
    · rename_i hlt
      simp only [List.cons_append, List.nil_append, List.cons.injEq] at he
      obtain ⟨rfl, rfl, rfl⟩ := he
      have hb : (UInt8.ofNat (c / 256)).toNat = c / 256 := by
        simp only [UInt8.toNat_ofNat']; omega
      rw [hb]
      unfold IsScalar at hc
      refine ⟨by omega, by omega, fun _ => ⟨cs, fun x hx => hs x (by simp [hx]), rfl⟩⟩
    · rename_i hge
      simp only [List.cons_append, List.nil_append, List.cons.injEq] at he
      obtain ⟨rfl, rfl, rfl⟩ := he
      unfold IsScalar at hc
      have hb : (UInt8.ofNat ((0xD800 + (c - 0x10000) / 1024) / 256)).toNat =
          (0xD800 + (c - 0x10000) / 1024) / 256 := by
        simp only [UInt8.toNat_ofNat']; omega
      have hb' : (UInt8.ofNat ((0xDC00 + (c - 0x10000) % 1024) / 256)).toNat =
          (0xDC00 + (c - 0x10000) % 1024) / 256 := by
        simp only [UInt8.toNat_ofNat']; omega
      rw [hb]
      refine ⟨by omega, fun _ => ⟨_, _, _, rfl, ?_, ?_, cs, fun x hx => hs x (by simp [hx]), rfl⟩,
        by omega⟩
      · rw [hb']; omega
      · rw [hb']; omega

example := C25_surrogates 0xd8 0x3d [0xde, 0x00] ⟨[0x1F600], by simp [IsScalar], by decide⟩

/-- C25: a BMPString node of any returned object exposes the contents octets verbatim, and these
are well-formed. -/
theorem C25_bmp_verbatim (D : Deps) (i rem : Bytes) (o o' : BerObject) (s : Bytes)
    (hr : Returned D i rem o) (hn : Node o' o) (hs : o'.content = .bmpString s) :
    (∃ pre hb post, i = pre ++ (hb ++ s) ++ post ++ rem ∧ BerHeader hb o'.header ∧
      o'.header.constructed = false ∧ o'.header.tag = 30 ∧
      o'.header.length = .definite s.length) ∧
    o'.content.asSlice = .ok s ∧ IsUtf16 s := by
  obtain ⟨pre, e, post, c, h1, h2, h3 | ⟨hd, d, e1, e2, e3, hD⟩⟩ := returned_node hr hn
  · rw [hs] at h3; simp at h3
  · have hL : Leaf D hd c (.bmpString s) := by
      rw [hs] at hD
      generalize hx : Content.bmpString s = x at hD
      cases hD with
      | leaf _ _ _ _ hL => subst hx; exact hL
      | sequence => simp at hx
      | set => simp at hx
    obtain ⟨_, l2, l3, rfl, l5⟩ := hL
    obtain ⟨hb, H, rfl, hl⟩ := framed_primitive h2 (by rw [← e1]; exact l3)
    refine ⟨⟨pre, hb, post, h1, H, by rw [← e1]; exact l3, by rw [← e2]; exact l2, hl⟩, ?_, l5⟩
    rw [hs]; rfl

-- U+1F600 as the pair d83d de00; a lone leading surrogate is rejected
example : IsUtf16 [0xd8, 0x3d, 0xde, 0x00] := ⟨[0x1F600], by simp [IsScalar], by decide⟩
example : (parseBer Tests.D0 [0x1e, 0x04, 0xd8, 0x3d, 0xde, 0x00]).isOk = true := by decide +kernel
example : parseBer Tests.D0 [0x1e, 0x02, 0xd8, 0x3d] = .err (.error .stringInvalidCharset) := by rfl
example : parseBer Tests.D0 [0x1e, 0x01, 0x00] = .err (.error .unsupported) := by rfl

/-! ## C26 -/

/-- Content variants that expose the contents octets as they are, with these octets. -/
def Spec.Verbatim : Content → Option Bytes
  | .integer s | .octetString s | .oid s | .relativeOid s | .universalString s => some s
  | .bitString u s => some (u :: s)
  | .unknown a => some a.data
  | _ => none

/-- C26: INTEGER, OCTET STRING, OBJECT IDENTIFIER, RELATIVE-OID, UniversalString, BIT STRING (with
its first octet) and unknown nodes hold exactly the contents octets of their element.  (For a
constructed element these are the octets of the elements inside.) -/
theorem C26_verbatim (D : Deps) (i rem : Bytes) (o o' : BerObject) (s : Bytes)
    (hr : Returned D i rem o) (hn : Node o' o) (hs : Verbatim o'.content = some s) :
    ∃ pre e post, i = pre ++ e ++ post ++ rem ∧ Framed 50 e o'.header s := by
  obtain ⟨pre, e, post, c, h1, h2, h3 | ⟨hd, d, e1, e2, e3, hD⟩⟩ := returned_node hr hn
  · rw [h3] at hs
    simp only [Verbatim, Option.some.injEq] at hs
    subst hs
    exact ⟨pre, e, post, h1, h2⟩
  · have hc : s = c := by
      generalize o'.content = x at hD hs
      cases hD with
      | leaf _ _ _ _ hL =>
        cases x <;> simp only [Verbatim, Option.some.injEq, reduceCtorEq] at hs <;>
          simp only [Leaf] at hL
        case integer => rw [← hs]; exact hL.2.2
        case octetString => rw [← hs]; exact hL.2.2
        case oid => rw [← hs]; exact hL.2.2
        case relativeOid => rw [← hs]; exact hL.2.2
        case universalString => rw [← hs]; exact hL.2.2.2
        case bitString => rw [← hs]; exact hL.2.2.2.symm
        case unknown => rw [← hs, hL.1]
      | sequence => simp [Verbatim] at hs
      | set => simp [Verbatim] at hs
    subst hc
    exact ⟨pre, e, post, h1, h2⟩

/-- C26: what the accessors return. -/
theorem C26_accessors (a : Any) (s : Bytes) (u : UInt8) :
    (Content.integer s).asSlice = .ok s ∧ (Content.octetString s).asSlice = .ok s ∧
    (Content.universalString s).asSlice = .ok s ∧ (Content.bitString u s).asSlice = .ok s ∧
    (Content.bitString u s).asBitstring = .ok s ∧
    (Content.unknown a).asSlice = .ok a.data ∧ (Content.oid s).asOid = .ok s ∧
    (Content.relativeOid s).asOid = .ok s := ⟨rfl, rfl, rfl, rfl, rfl, rfl, rfl, rfl⟩

/-- C26: the octets lie in the input right after the header, with nothing in between, and for the
definite form extend to the end of the element. -/
theorem C26_slices (D : Deps) (i rem : Bytes) (o o' : BerObject) (s : Bytes)
    (hr : Returned D i rem o) (hn : Node o' o) (hs : Verbatim o'.content = some s) :
    ∃ pre hb post, i = pre ++ hb ++ s ++ post ++ rem ∧ BerHeader hb o'.header ∧
      (o'.header.length ≠ .indefinite → o'.header.length = .definite s.length) := by
  obtain ⟨pre, e, post, h1, h2⟩ := C26_verbatim D i rem o o' s hr hn hs
  obtain ⟨hb, post', H, rfl, h3⟩ := framed_infix h2
  refine ⟨pre, hb, post' ++ post, by rw [h1]; simp, H, fun hne => ?_⟩
  rcases h3 with h3 | h3
  · exact h3.1
  · exact absurd h3.1 hne

example : Returned Tests.D0 [0x24, 0x80, 0x04, 0x01, 0x41, 0, 0, 0xbb] [0xbb]
    (.mk ⟨.universal, true, 4, .indefinite, some [0x24]⟩ (.octetString [0x04, 0x01, 0x41])) :=
  returned_ber (by rfl)
example : Verbatim (.octetString [0x04, 0x01, 0x41]) = some [0x04, 0x01, 0x41] := rfl

/-! ## C27 -/

theorem denotes_agrees {D : Deps} {d : Nat} {h : Header} {c : Bytes} {x : Content}
    (hD : Denotes D d h c x) : Agrees h x := by
  cases hD with
  | leaf _ _ _ _ hL =>
    cases x <;> simp only [Leaf] at hL <;> (try simp only [Agrees])
    case str k s => cases k <;> exact ⟨hL.1, hL.2.1⟩
    case unknown a => exact ⟨by rw [hL.1]; exact ⟨rfl, rfl, rfl, rfl⟩, hL.2⟩
    all_goals first | exact hL | exact ⟨hL.1, hL.2.1⟩
  | sequence _ _ _ h1 h2 => exact ⟨h1, h2⟩
  | set _ _ _ h1 h2 => exact ⟨h1, h2⟩

theorem agrees_congr {h h' : Header} {x : Content} (hs : SameHeader h h') (ha : Agrees h x) :
    Agrees h' x := by
  obtain ⟨h1, h2, h3, h4⟩ := hs
  cases x with
  | unknown a =>
    obtain ⟨⟨a1, a2, a3, a4⟩, hb⟩ := ha
    rw [h1, h3] at hb
    exact ⟨⟨a1.trans h1, a2.trans h2, a3.trans h3, a4.trans h4⟩, hb⟩
  | str k s => cases k <;> (simp only [Agrees] at ha ⊢; rw [← h1, ← h3]; exact ha)
  | _ => simp only [Agrees] at ha ⊢ <;> (rw [← h1, ← h3]; exact ha)

/-- C27: every node of the tree returned by `parse_ber` has the content variant of its header. -/
theorem C27_parse_ber (D : Deps) (d : Nat) (i rem : Bytes) (o o' : BerObject)
    (h : parseBerRecursive D d i = .ok (rem, o)) (hn : Node o' o) : Agrees o'.header o'.content := by
  obtain ⟨_, _, _, _, _, _, _, _, hD⟩ := C62_nodes_from_input D d i rem o o' h hn
  exact denotes_agrees hD

example := C27_parse_ber Tests.D0 50 [0x30, 0x03, 0x02, 0x01, 0x05] [] _
  (.mk ⟨.universal, false, 2, .definite 1, some [2]⟩ (.integer [5])) rfl (.seq _ _ _ (List.mem_singleton.2 rfl) .self)

/-- C27: every node of the tree returned by `parse_der` has the content variant of its header. -/
theorem C27_parse_der (D : Deps) (hT : TimesKnown D) (d : Nat) (i rem : Bytes) (o o' : BerObject)
    (h : parseDerRecursive D (d + 1) i = .ok (rem, o)) (hn : Node o' o) :
    Agrees o'.header o'.content := by
  obtain ⟨hb, c, _, _, hl, _, h2⟩ := (parseDerRecursive_iff hT).1 h
  rcases h2 with ⟨h3, h4⟩ | ⟨h3, _, hD⟩
  · have : o' = o := by
      cases hn with
      | self => rfl
      | seq h l o1 _ _ => simp at h4
      | set h l o1 _ _ => simp at h4
    subst this
    rw [h4]
    exact ⟨⟨rfl, rfl, rfl, rfl⟩, .inl h3⟩
  · rcases denotes_node hn hD with rfl | ⟨_, _, _, _, _, _, _, _, hD'⟩
    · exact agrees_congr (h := Header.new .universal o'.header.constructed o'.header.tag
        o'.header.length) ⟨h3.symm, rfl, rfl, rfl⟩ (denotes_agrees hD)
    · exact denotes_agrees hD'

example := C27_parse_der Tests.D0 (fun _ _ _ => by simp [Tests.D0]) 49 [0x30, 0x03, 0x02, 0x01, 0x05] [] _
  (.mk ⟨.universal, false, 2, .definite 1, some [2]⟩ (.integer [5])) rfl (.seq _ _ _ (List.mem_singleton.2 rfl) .self)

/-- C27: the agreement determines the variant: two contents that agree with one header have the
same constructor (and, for strings, the same kind). -/
theorem C27_variant_unique (h : Header) (x y : Content) (hx : Agrees h x) (hy : Agrees h y) :
    (∃ k s s', x = .str k s ∧ y = .str k s') ∨ x.ctorIdx = y.ctorIdx := by
  cases x <;> (try (rename_i k _; cases k)) <;> cases y <;> (try (rename_i k _; cases k)) <;>
    simp_all [Agrees, Content.ctorIdx]

theorem timesKnown_D0 : TimesKnown Tests.D0 := fun c bs t => by simp [Tests.D0]

example : ∃ o, parseDer Tests.D0 [0x30, 0x05, 0x82, 0x00, 0x02, 0x01, 0x05] = .ok ([], o) ∧
    Node (.mk ⟨.contextSpecific, false, 2, .definite 0, some [0x82]⟩
      (.unknown ⟨⟨.contextSpecific, false, 2, .definite 0, some [0x82]⟩, []⟩)) o :=
  ⟨_, rfl, .seq _ _ _ (List.mem_cons_self ..) .self⟩

end Verif
