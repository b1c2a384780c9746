import Verif.Word
import Verif.Props.Values
import Verif.Props.Access
import Verif.Props.Limits
import Verif.Lemmas.EncodeTree
/-!
# Property C111: machine words
-/
namespace Verif
open Outcome Spec

/-- What C111 says of the two accessors that count bits: on a 32-bit or 64-bit target, for data that a
slice can hold (at most half of the address space), they answer what they answer with unbounded numbers. -/
def C111Statement : Prop :=
  ∀ (t : Target) (c : Content), (t.bits = 32 ∨ t.bits = 64) →
    (∀ u d, c = .bitString u d → d.length < 2 ^ (t.bits - 1)) →
    c.asU64W t = c.asU64 ∧ c.asU32W t = c.asU32

theorem Target.word_small {ε : Type} (t : Target) (n : Nat) (h : n < 2 ^ t.bits) :
    (t.word n : Outcome ε Nat) = .ok n := by
  unfold Target.word; rw [if_pos h]

theorem Target.word_wraps {ε : Type} (t : Target) (n : Nat) (h : t.checked = false) :
    (t.word n : Outcome ε Nat) = .ok (n % 2 ^ t.bits) := by
  unfold Target.word
  split
  · rename_i h1; rw [Nat.mod_eq_of_lt h1]
  · rw [h]; rfl

theorem Target.word_panics {ε : Type} (t : Target) (n : Nat) (hc : t.checked = true) (h : 2 ^ t.bits ≤ n) :
    (t.word n : Outcome ε Nat) = .panic := by
  unfold Target.word
  rw [if_neg (by omega), if_pos hc]

/-- C111: while the number of bits fits in a word, the accessors answer as with unbounded numbers.  On a
64-bit target this covers data below 2^61 octets, on a 32-bit target data below 2^29 octets. -/
theorem C111_exact_partial (t : Target) (c : Content)
    (h : ∀ u d, c = .bitString u d → d.length * 8 < 2 ^ t.bits) :
    c.asU64W t = c.asU64 ∧ c.asU32W t = c.asU32 := by
  cases c with
  | bitString u d =>
    have h1 := h u d rfl
    have : bitstringToU64W t u.toNat d = bitstringToU64 u.toNat d := by
      unfold bitstringToU64W bitstringToU64
      rw [Target.word_small t _ h1]
      rfl
    simp only [Content.asU64W, Content.asU64, Content.asU32W, Content.asU32, this, and_self]
  | _ => exact ⟨rfl, rfl⟩

/-- C111: with overflow checks, the accessors panic on longer data. -/
theorem C111_checked (t : Target) (u : UInt8) (d : Bytes) (hc : t.checked = true)
    (h : 2 ^ t.bits ≤ d.length * 8) :
    (Content.bitString u d).asU64W t = .panic ∧ (Content.bitString u d).asU32W t = .panic := by
  have : bitstringToU64W t u.toNat d = .panic := by
    unfold bitstringToU64W
    rw [Target.word_panics t _ hc h]
    rfl
  simp only [Content.asU64W, Content.asU32W, this, panic_bind, and_self]

/-- A target with words of four bits: two octets are too many. -/
example := C111_checked ⟨4, true⟩ 0 [0xab, 0xcd] rfl (by decide)

/-- C111: without overflow checks, the answer is the one for the data cut down to its length modulo
2^(bits-3). -/
theorem C111_unchecked (t : Target) (u : UInt8) (d : Bytes) (hc : t.checked = false) (hb : 3 ≤ t.bits) :
    (Content.bitString u d).asU64W t =
      (Content.bitString u (d.take (d.length % 2 ^ (t.bits - 3)))).asU64 ∧
    (Content.bitString u d).asU32W t =
      (Content.bitString u (d.take (d.length % 2 ^ (t.bits - 3)))).asU32 := by
  have hp : 2 ^ t.bits = 2 ^ (t.bits - 3) * 8 := by
    rw [show t.bits = (t.bits - 3) + 3 from by omega, Nat.pow_add]; simp
  have : bitstringToU64W t u.toNat d =
      bitstringToU64 u.toNat (d.take (d.length % 2 ^ (t.bits - 3))) := by
    unfold bitstringToU64W bitstringToU64
    rw [Target.word_wraps t _ hc, hp, Nat.mul_mod_mul_right]
    generalize hm : d.length % 2 ^ (t.bits - 3) = m
    have hle : m ≤ d.length := hm ▸ Nat.mod_le _ _
    have hl : (d.take m).length = m := by rw [List.length_take]; omega
    rw [hl]
    simp only [ok_bind]
    generalize u.toNat = p
    split
    · rfl
    · split
      · rfl
      · generalize hk : (if 0 < (m * 8 - p) % 8 then (m * 8 - p) / 8 + 1 else (m * 8 - p) / 8) = k
        have hkm : k ≤ m := by
          rw [← hk]; split <;> omega
        rw [if_neg (by omega), if_neg (by omega), List.take_take, Nat.min_eq_left hkm]
  simp only [Content.asU64W, Content.asU64, Content.asU32W, Content.asU32, this, and_self]

example := C111_unchecked ⟨32, false⟩ 4 [0xab, 0xc0] rfl (by decide)

/-- A header for contents of `n` octets. -/
theorem bigBitString_aux (D : Deps) (n : Nat) (z hb : Bytes) (h : Header) (hH : BerHeader hb h)
    (h1 : h.cls = .universal) (h2 : h.tag = 3) (h3 : h.constructed = false)
    (hz : z.length = n) (hl : h.length = .definite (n + 1)) :
    parseBer D (hb ++ (0 :: z)) = .ok ([], .mk h (.bitString 0 z)) := by
  unfold parseBer
  refine parseBerRecursive_iff.2 ⟨hb ++ (0 :: z), 0 :: z, by simp, ?_, ?_⟩
  · exact .definite hb (0 :: z) h hH (by rw [hl, List.length_cons, hz])
  · exact .leaf 49 _ _ _ ⟨h1, h2, h3, rfl⟩

theorem bigBitString (D : Deps) : ∃ (i : Bytes) (h : Header) (z : Bytes), z.length = 2 ^ 29 ∧
    i.length = 2 ^ 29 + 7 ∧ parseBer D i = .ok ([], .mk h (.bitString 0 z)) := by
  have hlen : (List.replicate (2 ^ 29) (0 : UInt8)).length = 2 ^ 29 := List.length_replicate
  generalize List.replicate (2 ^ 29) (0 : UInt8) = z at hlen
  have hh : headerFromBer [3, 0x84, 0x20, 0, 0, 1] = .ok (([] : Bytes),
      { cls := .universal, constructed := false, tag := 3, length := .definite (2 ^ 29 + 1),
        rawTag := some [3] }) := by decide +kernel
  generalize hd : (2 : Nat) ^ 29 = n at hlen hh ⊢
  obtain ⟨hb, e1, e2⟩ := headerFromBer_iff.1 hh
  rw [List.append_nil] at e1
  refine ⟨hb ++ (0 :: z), _, z, hlen, ?_, bigBitString_aux D n z hb _ e2 rfl rfl rfl hlen rfl⟩
  rw [List.length_append, List.length_cons, hlen, ← e1]
  simp only [List.length_cons, List.length_nil]
  omega

/-- C111: on a target with 32 bits and no overflow checks, a BIT STRING of 2^29 zero octets is accepted by
`parse_ber` and reads as the number zero, and with overflow checks reading it panics; it should be refused
as too large (finding 51). -/
theorem C111_counterexample (D : Deps) :
    ¬ C111Statement ∧
    ∃ (i : Bytes) (o : BerObject), i.length = 2 ^ 29 + 7 ∧ parseBer D i = .ok ([], o) ∧
      o.asU64 = .err .integerTooLarge ∧ o.content.asU64W ⟨32, false⟩ = .ok 0 ∧
      o.content.asU64W ⟨32, true⟩ = .panic := by
  obtain ⟨i, h, z, hz, hi, hp⟩ := bigBitString D
  have hbig : (Content.bitString 0 z).asU64 = .err .integerTooLarge := by
    have := C21_as_u64_bitstring (.mk h (.bitString 0 z)) 0 z rfl
    unfold BerObject.asU64 at this
    rw [BerObject.content_mk] at this
    rw [this]
    unfold bitStringResult
    have hu : (0 : UInt8).toNat = 0 := rfl
    rw [bitsOf_length, hz, hu, if_neg (by omega), if_pos (by omega)]
  have hzero : (Content.bitString 0 z).asU64W ⟨32, false⟩ = .ok 0 := by
    rw [(C111_unchecked ⟨32, false⟩ 0 z rfl (by decide)).1, hz,
      show (⟨32, false⟩ : Target).bits - 3 = 29 from rfl, Nat.mod_self, List.take_zero]
    rfl
  refine ⟨?_, i, _, hi, hp, hbig, hzero, ?_⟩
  rotate_left
  · exact (C111_checked ⟨32, true⟩ 0 z rfl (by
      rw [hz, show (⟨32, true⟩ : Target).bits = 32 from rfl]; omega)).1
  intro hS
  have := (hS ⟨32, false⟩ (.bitString 0 z) (.inl rfl) (by
    intro u d hd
    injection hd with _ hd
    rw [← hd, hz, show (⟨32, false⟩ : Target).bits = 32 from rfl]; omega)).1
  rw [hzero, hbig] at this
  simp at this

/-! ## Iterators -/

/-- Results of `k` calls of `next` of a reference iterator on a target. -/
def RefIter.takeW (t : Target) : Nat → RefIter → Outcome Empty (List (Option BerObject))
  | 0, _ => .ok []
  | k + 1, it => it.nextW t >>? fun r => takeW t k r.2 >>? fun l => .ok (r.1 :: l)

/-- Results of `k` calls of `next` of a consuming iterator on a target. -/
def IntoIter.takeW (t : Target) : Nat → IntoIter → Outcome Empty (List (Option BerObject))
  | 0, _ => .ok []
  | k + 1, it => it.nextW t >>? fun r => takeW t k r.2 >>? fun l => .ok (r.1 :: l)

namespace Spec
/-- The children of a SEQUENCE or SET. -/
def members : Content → List BerObject
  | .sequence l => l
  | .set l => l
  | _ => []
end Spec

theorem RefIter.next_members (it : RefIter) : it.next.1 = (members it.obj.content)[it.idx]? := by
  unfold RefIter.next
  dsimp only
  cases it.obj.content <;> simp only [members, List.getElem?_nil]
  all_goals (split <;> first | rfl | (symm; exact List.getElem?_eq_none (by omega)))

/-- C111: fewer than 2^bits calls of `next` on a reference give the children one by one and then nothing,
whatever the target. -/
theorem C111_ref_iter (t : Target) (o : BerObject) (k : Nat) (hk : k < 2 ^ t.bits) :
    o.refIter.takeW t k = .ok ((List.range k).map fun j => (members o.content)[j]?) := by
  suffices ∀ k n, n + k < 2 ^ t.bits → RefIter.takeW t k { obj := o, idx := n } =
      .ok ((List.range k).map fun j => (members o.content)[n + j]?) by
    have := this k 0 (by omega)
    simpa [BerObject.refIter] using this
  intro k
  induction k with
  | zero => intro n _; rfl
  | succ k ih =>
    intro n hn
    rw [RefIter.takeW]
    unfold RefIter.nextW
    rw [Target.word_small t _ (by dsimp only; omega)]
    simp only [ok_bind]
    rw [ih (n + 1) (by omega)]
    simp only [ok_bind, RefIter.next_members, List.range_succ_eq_map, List.map_cons, List.map_map,
      ok.injEq, List.cons.injEq]
    refine ⟨rfl, List.map_congr_left fun j _ => ?_⟩
    simp only [Function.comp]
    congr 1
    omega

example := C111_ref_iter ⟨32, true⟩ (.fromSeq [.fromObj .null]) 5 (by decide)

/-- C111: without overflow checks the iterator starts again after 2^bits calls. -/
theorem C111_ref_iter_wraps (t : Target) (o : BerObject) (k : Nat) (hc : t.checked = false) :
    o.refIter.takeW t k = .ok ((List.range k).map fun j => (members o.content)[j % 2 ^ t.bits]?) := by
  suffices ∀ k n, n < 2 ^ t.bits → RefIter.takeW t k { obj := o, idx := n } =
      .ok ((List.range k).map fun j => (members o.content)[(n + j) % 2 ^ t.bits]?) by
    have := this k 0 (Nat.pow_pos (by decide))
    simpa [BerObject.refIter] using this
  intro k
  induction k with
  | zero => intro n _; rfl
  | succ k ih =>
    intro n hn
    rw [RefIter.takeW]
    unfold RefIter.nextW
    rw [Target.word_wraps t _ hc]
    simp only [ok_bind]
    rw [ih _ (Nat.mod_lt _ (Nat.pow_pos (by decide)))]
    simp only [ok_bind, RefIter.next_members, List.range_succ_eq_map, List.map_cons, List.map_map,
      ok.injEq, List.cons.injEq]
    refine ⟨by rw [Nat.add_zero, Nat.mod_eq_of_lt hn], List.map_congr_left fun j _ => ?_⟩
    simp only [Function.comp, Nat.mod_add_mod]
    congr 2
    omega

example := C111_ref_iter_wraps ⟨32, false⟩ (.fromSeq [.fromObj .null]) (2 ^ 32 + 1) rfl

/-- C111: with overflow checks the call number 2^bits panics. -/
theorem C111_ref_iter_panics (t : Target) (o : BerObject) (k : Nat) (hc : t.checked = true)
    (hk : 2 ^ t.bits ≤ k) : o.refIter.takeW t k = .panic := by
  suffices ∀ k n, n < 2 ^ t.bits → 2 ^ t.bits ≤ n + k → RefIter.takeW t k { obj := o, idx := n } = .panic by
    exact this k 0 (Nat.pow_pos (by decide)) (by omega)
  intro k
  induction k with
  | zero => intro n h1 h2; omega
  | succ k ih =>
    intro n h1 h2
    rw [RefIter.takeW]
    unfold RefIter.nextW
    by_cases h3 : n + 1 < 2 ^ t.bits
    · rw [Target.word_small t _ h3]
      simp only [ok_bind]
      rw [ih (n + 1) h3 (by omega)]
      rfl
    · rw [Target.word_panics t _ hc (by dsimp only; omega)]
      rfl

example := C111_ref_iter_panics ⟨32, true⟩ (.fromSeq [.fromObj .null]) (2 ^ 32) rfl (by decide)

/-- The answers of the consuming iterator with unbounded numbers. -/
def IntoIter.takeN : Nat → IntoIter → List (Option BerObject)
  | 0, _ => []
  | k + 1, it => it.next.1 :: takeN k it.next.2

/-- C111: fewer than 2^bits calls of `next` on the consuming iterator give what C51 says. -/
theorem C111_into_iter (t : Target) (o : BerObject) (k : Nat) (hk : k < 2 ^ t.bits) :
    o.intoIter.takeW t k = .ok (o.intoIter.takeN k) := by
  suffices ∀ k n, n + k < 2 ^ t.bits → IntoIter.takeW t k { val := o, idx := n } =
      .ok (IntoIter.takeN k { val := o, idx := n }) from this k 0 (by omega)
  intro k
  induction k with
  | zero => intro n _; rfl
  | succ k ih =>
    intro n hn
    rw [IntoIter.takeW, IntoIter.takeN]
    unfold IntoIter.nextW
    rw [Target.word_small t _ (by dsimp only; omega)]
    simp only [ok_bind]
    rw [ih (n + 1) (by omega)]
    rfl

example := C111_into_iter ⟨32, true⟩ (.fromSeq [.fromObj .null]) 5 (by decide)

/-! ## Visitors -/

mutual
theorem visitObjW_small {σ : Type} (t : Target) (v : Visitor σ) (o : BerObject) (d : Nat) (s : σ)
    (h : d + depth o ≤ 2 ^ t.bits) : visitObjW t v o d s = .ok (visitObj v o d s) := by
  match o with
  | .mk h' c =>
    rw [visitObjW, visitObj]
    exact visitContentW_small t v c d _ (by rw [depth] at h; exact h)
theorem visitContentW_small {σ : Type} (t : Target) (v : Visitor σ) (c : Content) (d : Nat) (s : σ)
    (h : d + contentDepth c ≤ 2 ^ t.bits) : visitContentW t v c d s = .ok (visitContent v c d s) := by
  match c with
  | .sequence l =>
    rw [contentDepth] at h
    simp only [visitContentW, visitContent]
    exact visitListW_small t v l d _ (by omega)
  | .set l =>
    rw [contentDepth] at h
    simp only [visitContentW, visitContent]
    exact visitListW_small t v l d _ (by omega)
  | .boolean _ | .integer _ | .bitString _ _ | .octetString _ | .null | .enum _ | .oid _
  | .relativeOid _ | .str _ _ | .utcTime _ | .generalizedTime _ | .bmpString _
  | .universalString _ | .optionalNone | .optionalSome _ | .tagged _ _ _ | .endOfContent
  | .unknown _ => simp only [visitContentW, visitContent]
theorem visitListW_small {σ : Type} (t : Target) (v : Visitor σ) (l : List BerObject) (d : Nat) (s : σ)
    (h : d + 1 + listDepth l ≤ 2 ^ t.bits) :
    visitListW t v l d s = .ok (visitList v l (d + 1) s) := by
  match l with
  | [] => rfl
  | o :: os =>
    rw [listDepth] at h
    have hd : 0 < depth o := by
      match o with
      | .mk _ c => rw [depth]; cases c <;> simp [contentDepth]
    rw [visitListW, visitList, Target.word_small t _ (by omega)]
    simp only [ok_bind]
    rw [visitObjW_small t v o (d + 1) s (by omega)]
    simp only [ok_bind]
    exact visitListW_small t v os d _ (by omega)
end

mutual
theorem visitObjW_wraps {σ : Type} (t : Target) (v : Visitor σ) (hc : t.checked = false) (o : BerObject)
    (d : Nat) (s : σ) :
    visitObjW t v o (d % 2 ^ t.bits) s =
      .ok (((preorder o d).map fun e => (e.1, e.2 % 2 ^ t.bits)).foldl (calls v) s) := by
  match o with
  | .mk h' c =>
    rw [visitObjW, preorder, List.map_cons, List.foldl_cons]
    exact visitContentW_wraps t v hc c d _
theorem visitContentW_wraps {σ : Type} (t : Target) (v : Visitor σ) (hc : t.checked = false) (c : Content)
    (d : Nat) (s : σ) :
    visitContentW t v c (d % 2 ^ t.bits) s =
      .ok (((preorderC c d).map fun e => (e.1, e.2 % 2 ^ t.bits)).foldl (calls v)
        (v.callback (cbName c) c (d % 2 ^ t.bits) s)) := by
  match c with
  | .sequence l => simp only [visitContentW, preorderC, cbName]; exact visitListW_wraps t v hc l d _
  | .set l => simp only [visitContentW, preorderC, cbName]; exact visitListW_wraps t v hc l d _
  | .boolean _ | .integer _ | .bitString _ _ | .octetString _ | .null | .enum _ | .oid _
  | .relativeOid _ | .str _ _ | .utcTime _ | .generalizedTime _ | .bmpString _
  | .universalString _ | .optionalNone | .optionalSome _ | .tagged _ _ _ | .endOfContent
  | .unknown _ => simp only [visitContentW, preorderC, List.map_nil, List.foldl_nil]
theorem visitListW_wraps {σ : Type} (t : Target) (v : Visitor σ) (hc : t.checked = false)
    (l : List BerObject) (d : Nat) (s : σ) :
    visitListW t v l (d % 2 ^ t.bits) s =
      .ok (((preorderL l (d + 1)).map fun e => (e.1, e.2 % 2 ^ t.bits)).foldl (calls v) s) := by
  match l with
  | [] => rfl
  | o :: os =>
    rw [visitListW, preorderL, List.map_append, List.foldl_append, Target.word_wraps t _ hc]
    simp only [ok_bind, Nat.mod_add_mod]
    rw [visitObjW_wraps t v hc o (d + 1) s]
    simp only [ok_bind]
    exact visitListW_wraps t v hc os d _
end

mutual
theorem visitObjW_panics {σ : Type} (t : Target) (v : Visitor σ) (hc : t.checked = true) (o : BerObject)
    (d : Nat) (s : σ) (hd : d < 2 ^ t.bits) (h : 2 ^ t.bits < d + depth o) :
    visitObjW t v o d s = .panic := by
  match o with
  | .mk h' c =>
    rw [visitObjW]
    exact visitContentW_panics t v hc c d _ hd (by rw [depth] at h; exact h)
theorem visitContentW_panics {σ : Type} (t : Target) (v : Visitor σ) (hc : t.checked = true) (c : Content)
    (d : Nat) (s : σ) (hd : d < 2 ^ t.bits) (h : 2 ^ t.bits < d + contentDepth c) :
    visitContentW t v c d s = .panic := by
  match c with
  | .sequence l =>
    rw [contentDepth] at h
    simp only [visitContentW]
    exact visitListW_panics t v hc l d _ hd (by omega)
  | .set l =>
    rw [contentDepth] at h
    simp only [visitContentW]
    exact visitListW_panics t v hc l d _ hd (by omega)
  | .boolean _ | .integer _ | .bitString _ _ | .octetString _ | .null | .enum _ | .oid _
  | .relativeOid _ | .str _ _ | .utcTime _ | .generalizedTime _ | .bmpString _
  | .universalString _ | .optionalNone | .optionalSome _ | .tagged _ _ _ | .endOfContent
  | .unknown _ => simp only [contentDepth] at h; omega
theorem visitListW_panics {σ : Type} (t : Target) (v : Visitor σ) (hc : t.checked = true)
    (l : List BerObject) (d : Nat) (s : σ) (hd : d < 2 ^ t.bits) (h : 2 ^ t.bits < d + 1 + listDepth l) :
    visitListW t v l d s = .panic := by
  match l with
  | [] => simp only [listDepth] at h; omega
  | o :: os =>
    rw [listDepth] at h
    rw [visitListW]
    by_cases h1 : 2 ^ t.bits ≤ d + 1
    · rw [Target.word_panics t _ hc h1]; rfl
    · rw [Target.word_small t _ (by omega)]
      simp only [ok_bind]
      by_cases h2 : 2 ^ t.bits < d + 1 + depth o
      · rw [visitObjW_panics t v hc o (d + 1) s (by omega) h2]; rfl
      · rw [visitObjW_small t v o (d + 1) s (by omega)]
        simp only [ok_bind]
        exact visitListW_panics t v hc os d _ hd (by omega)
end

/-- C111: a traversal whose depths stay below 2^bits makes the calls of C52, on every target. -/
theorem C111_visit {σ : Type} (t : Target) (v : Visitor σ) (o : BerObject) (d : Nat) (s : σ)
    (h : d + depth o ≤ 2 ^ t.bits) :
    visitObjW t v o d s = .ok ((preorder o d).foldl (calls v) s) := by
  rw [visitObjW_small t v o d s h, visitObj_fold]

/-- C111: without overflow checks every object is visited all the same, at its depth modulo 2^bits. -/
theorem C111_visit_wraps {σ : Type} (t : Target) (v : Visitor σ) (hc : t.checked = false) (o : BerObject)
    (d : Nat) (s : σ) (hd : d < 2 ^ t.bits) :
    visitObjW t v o d s =
      .ok (((preorder o d).map fun e => (e.1, e.2 % 2 ^ t.bits)).foldl (calls v) s) := by
  have := visitObjW_wraps t v hc o d s
  rwa [Nat.mod_eq_of_lt hd] at this

example := C111_visit_wraps ⟨32, false⟩ Tests.recorder rfl (.fromSeq [.fromObj .null]) (2 ^ 32 - 1) [] (by decide)

/-- C111: with overflow checks, a traversal that goes deeper than a word can count panics, and no other
does. -/
theorem C111_visit_panics {σ : Type} (t : Target) (v : Visitor σ) (hc : t.checked = true) (o : BerObject)
    (d : Nat) (s : σ) (hd : d < 2 ^ t.bits) :
    visitObjW t v o d s = .panic ↔ 2 ^ t.bits < d + depth o := by
  constructor
  · intro h
    rcases Nat.lt_or_ge (2 ^ t.bits) (d + depth o) with h1 | h1
    · exact h1
    · rw [visitObjW_small t v o d s h1] at h; simp at h
  · exact visitObjW_panics t v hc o d s hd

/-- C111: `run` on an object returned by `parse_ber` makes exactly the calls of C52 on every target with
words of a byte or more. -/
theorem C111_visit_parsed {σ : Type} (D : Deps) (t : Target) (v : Visitor σ) (i rem : Bytes) (o : BerObject)
    (s : σ) (hb : 8 ≤ t.bits) (hp : parseBer D i = .ok (rem, o)) :
    visitObjW t v o 0 s = .ok ((preorder o 0).foldl (calls v) s) := by
  have h1 := (C13_depth_exact D 50 i rem o hp).1
  have h2 : 2 ^ 8 ≤ 2 ^ t.bits := Nat.pow_le_pow_right (by decide) hb
  exact C111_visit t v o 0 s (by omega)

example := C111_visit_parsed Tests.D0 ⟨32, true⟩ Tests.recorder [0x30, 0x02, 0x05, 0x00, 9] [9] _ [] (by decide) rfl

/-! ## Length octets -/

theorem skipZeroes_toBeBytes (k n v : Nat) (h : v < 256 ^ n) :
    skipZeroes (toBeBytes (k + n) v) = skipZeroes (toBeBytes n v) := by
  induction k with
  | zero => rw [Nat.zero_add]
  | succ k ih =>
    rw [show k + 1 + n = (k + n) + 1 from by omega, toBeBytes, ← ih]
    have h1 : v / 256 ^ (k + n) = 0 := by
      refine Nat.div_eq_of_lt (Nat.lt_of_lt_of_le h ?_)
      exact Nat.pow_le_pow_right (by decide) (by omega)
    rw [h1]
    unfold skipZeroes
    rw [List.dropWhile_cons, if_pos (by decide)]

/-- C111: the length octets that are written do not depend on the target. -/
theorem C111_encode_length (t : Target) (m : Nat) (l : Length) (hm : t.bits = 8 * m) (h8 : m ≤ 8)
    (hl : ∀ sz, l = .definite sz → sz < 2 ^ t.bits) : encodeLengthW t l = encodeLength l := by
  cases l with
  | indefinite => rfl
  | definite sz =>
    have h1 := hl sz rfl
    rw [hm, Nat.pow_mul, show 2 ^ 8 = 256 from rfl] at h1
    have h2 := skipZeroes_toBeBytes (8 - m) m sz h1
    rw [show 8 - m + m = 8 from by omega] at h2
    unfold encodeLengthW encodeLength
    dsimp only
    rw [hm, Nat.mul_div_cancel_left _ (by decide), h2]

namespace Tests
example : (⟨32, false⟩ : Target).word (ε := Empty) (2 ^ 32 + 5) = .ok 5 := by decide
example : (⟨64, true⟩ : Target).word (ε := Empty) (2 ^ 32 + 5) = .ok (2 ^ 32 + 5) := by decide
/-- The bit string of /repo/src/ber/ber.rs:903 on every target. -/
example (t : Target) (h : 8 ≤ t.bits) :
    (Content.bitString 6 [0x6e, 0x5d, 0xc0]).asU64W t = .ok 0b011011100101110111 := by
  rw [(C111_exact_partial t _ (by
    intro u d hd
    injection hd with _ hd
    subst hd
    exact Nat.lt_of_lt_of_le (by decide : [0x6e, 0x5d, (0xc0 : UInt8)].length * 8 < 2 ^ 8)
      (Nat.pow_le_pow_right (by decide) h))).1]
  decide
/-- A visitor started at the largest depth panics on the members of a SEQUENCE. -/
example : visitObjW ⟨32, true⟩ recorder (.fromSeq [.fromObj .null]) (2 ^ 32 - 1) [] = .panic :=
  (C111_visit_panics _ _ rfl _ _ _ (by decide)).2 (by
    have : depth (.fromSeq [.fromObj .null]) = 2 := by decide
    rw [this]; decide)
example : visitObjW ⟨32, true⟩ recorder (.fromObj .null) (2 ^ 32 - 1) [] = .ok [(.null, 2 ^ 32 - 1)] := by rfl
example : encodeLengthW ⟨32, true⟩ (.definite 300) = [0x82, 0x01, 0x2c] := by decide
end Tests

end Verif
