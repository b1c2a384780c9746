import Verif.CostWrite
import Verif.Props.Cost
import Verif.Props.Nesting
import Verif.Props.Serialize
/-!
# Number of octets written by the serializer: C130
-/
namespace Verif
open Outcome Spec

/-! ## The counted functions give the same results -/

@[simp] theorem writeT_fst (s : Bytes) : (writeT s).1 = .ok s := rfl

theorem encodeHeaderT_fst (h : Header) : (encodeHeaderT h).1 = encodeHeader h := by
  simp only [encodeHeaderT, Tick.fst_bind, Tick.fst_free, writeT_fst]
  cases encodeHeader h <;> rfl

mutual
theorem encodeContentT_fst (D : Deps) : ∀ c : Content, (encodeContentT D c).1 = encodeContent D c
  | .endOfContent | .boolean _ | .integer _ | .bitString _ _ | .octetString _ | .null | .enum _ | .oid _
  | .relativeOid _ | .utcTime _ | .generalizedTime _ | .str _ _ | .bmpString _ | .universalString _ | .optionalNone
  | .unknown _ => rfl
  | .sequence l => by rw [encodeContentT, encodeContent]; exact encodeListT_fst D l
  | .set l => by rw [encodeContentT, encodeContent]; exact encodeListT_fst D l
  | .optionalSome (.mk h c) => by
    rw [encodeContentT, encodeContent, encodeInnerContentT, encodeInnerContent]; exact encodeContentT_fst D c
  | .tagged _ _ o => by rw [encodeContentT, encodeContent]; exact encodeObjectT_fst D o
theorem encodeObjectT_fst (D : Deps) : ∀ o : BerObject, (encodeObjectT D o).1 = encodeObject D o
  | .mk h c => by
    simp only [encodeObjectT, encodeObject, Tick.fst_bind, encodeContentT_fst D c, encodeHeaderT_fst, writeT_fst,
      Tick.fst_free, ok_bind]
theorem encodeListT_fst (D : Deps) : ∀ l : List BerObject, (encodeListT D l).1 = encodeList D l
  | [] => rfl
  | o :: os => by
    simp only [encodeListT, encodeList, Tick.fst_bind, encodeObjectT_fst D o, encodeListT_fst D os, Tick.fst_free]
end

/-! ## The number of octets -/

mutual
/-- The lengths of the encodings of an object and of all objects inside it that are written with a header, added up. -/
def Spec.lengths (D : Deps) : BerObject → Nat
  | .mk h c => (match toVec D (.mk h c) with | .ok b => b.length | _ => 0) + lengthsC D c
/-- The same for the objects inside a content. -/
def Spec.lengthsC (D : Deps) : Content → Nat
  | .sequence l => lengthsL D l
  | .set l => lengthsL D l
  | .optionalSome (.mk _ c) => lengthsC D c
  | .tagged _ _ o => lengths D o
  | _ => 0
/-- The same for a list of objects. -/
def Spec.lengthsL (D : Deps) : List BerObject → Nat
  | [] => 0
  | o :: os => lengths D o + lengthsL D os
end

mutual
theorem encodeContentT_snd (D : Deps) : ∀ (c : Content) (v : Bytes), encodeContent D c = .ok v →
    (encodeContentT D c).2 = v.length + lengthsC D c
  | .endOfContent, v, h | .boolean _, v, h | .integer _, v, h | .bitString _ _, v, h | .octetString _, v, h
  | .null, v, h | .enum _, v, h | .oid _, v, h | .relativeOid _, v, h | .utcTime _, v, h
  | .generalizedTime _, v, h | .str _ _, v, h | .bmpString _, v, h | .universalString _, v, h
  | .optionalNone, v, h | .unknown _, v, h => by
    simp only [encodeContent, Outcome.ok.injEq] at h
    subst h
    simp [encodeContentT, writeT, Tick.free, lengthsC]
  | .sequence l, v, h => by
    rw [encodeContent] at h; rw [encodeContentT, lengthsC]; exact encodeListT_snd D l v h
  | .set l, v, h => by
    rw [encodeContent] at h; rw [encodeContentT, lengthsC]; exact encodeListT_snd D l v h
  | .optionalSome (.mk _ c), v, h => by
    rw [encodeContent, encodeInnerContent] at h
    rw [encodeContentT, encodeInnerContentT, lengthsC]
    exact encodeContentT_snd D c v h
  | .tagged _ _ o, v, h => by
    rw [encodeContent] at h; rw [encodeContentT, lengthsC]; exact encodeObjectT_snd D o v h
theorem encodeObjectT_snd (D : Deps) : ∀ (o : BerObject) (b : Bytes), encodeObject D o = .ok b →
    (encodeObjectT D o).2 = b.length + lengths D o
  | .mk h c, b, e => by
    have e0 := e
    rw [encodeObject] at e
    obtain ⟨v, h1, e⟩ := bind_eq_ok.1 e
    obtain ⟨vh, h2, e⟩ := bind_eq_ok.1 e
    cases e
    have h3 := encodeContentT_snd D c v h1
    rw [lengths, toVec, e0, encodeObjectT]
    have h4 := encodeContentT_fst D c
    rw [h1] at h4
    simp only [Tick.bind, h4, encodeHeaderT, h2, Tick.free, writeT, h3, List.length_append]
    omega
theorem encodeListT_snd (D : Deps) : ∀ (l : List BerObject) (b : Bytes), encodeList D l = .ok b →
    (encodeListT D l).2 = b.length + lengthsL D l
  | [], b, e => by
    rw [encodeList] at e; cases e; rfl
  | o :: os, b, e => by
    rw [encodeList] at e
    obtain ⟨x, h1, e⟩ := bind_eq_ok.1 e
    obtain ⟨y, h2, e⟩ := bind_eq_ok.1 e
    cases e
    have h3 := encodeObjectT_snd D o x h1
    have h4 := encodeListT_snd D os y h2
    have h5 := encodeObjectT_fst D o
    have h6 := encodeListT_fst D os
    rw [h1] at h5
    rw [h2] at h6
    rw [encodeListT, lengthsL]
    simp only [Tick.bind, h5, h6, Tick.free, h3, h4, List.length_append]
    omega
end

mutual
theorem lengthsC_le (D : Deps) : ∀ (c : Content) (v : Bytes), encodeContent D c = .ok v →
    lengthsC D c ≤ heightC c * v.length
  | .endOfContent, _, _ | .boolean _, _, _ | .integer _, _, _ | .bitString _ _, _, _ | .octetString _, _, _
  | .null, _, _ | .enum _, _, _ | .oid _, _, _ | .relativeOid _, _, _ | .utcTime _, _, _
  | .generalizedTime _, _, _ | .str _ _, _, _ | .bmpString _, _, _ | .universalString _, _, _
  | .optionalNone, _, _ | .unknown _, _, _ => by simp [lengthsC]
  | .sequence l, v, h => by
    rw [encodeContent] at h; rw [lengthsC, heightC]; exact lengthsL_le D l v h
  | .set l, v, h => by
    rw [encodeContent] at h; rw [lengthsC, heightC]; exact lengthsL_le D l v h
  | .optionalSome (.mk _ c), v, h => by
    rw [encodeContent, encodeInnerContent] at h
    rw [lengthsC, heightC, height, Nat.add_mul]
    have := lengthsC_le D c v h
    omega
  | .tagged _ _ o, v, h => by
    rw [encodeContent] at h; rw [lengthsC, heightC]; exact lengths_le D o v h
theorem lengths_le (D : Deps) : ∀ (o : BerObject) (b : Bytes), encodeObject D o = .ok b →
    lengths D o ≤ height o * b.length
  | .mk h c, b, e => by
    have e0 := e
    rw [encodeObject] at e
    obtain ⟨v, h1, e⟩ := bind_eq_ok.1 e
    obtain ⟨vh, h2, e⟩ := bind_eq_ok.1 e
    cases e
    have h3 := lengthsC_le D c v h1
    rw [lengths, toVec, e0, height]
    have h4 := Nat.mul_le_mul_left (heightC c) (show v.length ≤ (vh ++ v).length by simp)
    rw [Nat.add_mul]
    dsimp only
    omega
theorem lengthsL_le (D : Deps) : ∀ (l : List BerObject) (b : Bytes), encodeList D l = .ok b →
    lengthsL D l ≤ heightL l * b.length
  | [], b, e => by simp [lengthsL]
  | o :: os, b, e => by
    rw [encodeList] at e
    obtain ⟨x, h1, e⟩ := bind_eq_ok.1 e
    obtain ⟨y, h2, e⟩ := bind_eq_ok.1 e
    cases e
    have h3 := lengths_le D o x h1
    have h4 := lengthsL_le D os y h2
    rw [lengthsL, heightL, List.length_append, Nat.mul_add]
    have h5 := Nat.mul_le_mul_right x.length (Nat.le_max_left (height o) (heightL os))
    have h6 := Nat.mul_le_mul_right y.length (Nat.le_max_right (height o) (heightL os))
    omega
end

/-! ## C130 -/

/-- C130: counting does not change the results. -/
theorem C130_same_results (D : Deps) (o : BerObject) : (encodeObjectT D o).1 = toVec D o := encodeObjectT_fst D o

/-- C130: the exact number of octets that `to_vec` writes, in all buffers together: each octet of the result once when it
is made, and once more for each object around it. -/
theorem C130_exact (D : Deps) (o : BerObject) (b : Bytes) (h : toVec D o = .ok b) :
    (encodeObjectT D o).2 = b.length + lengths D o := encodeObjectT_snd D o b h

example := C130_exact Tests.D0 (.fromSeq [.fromObj .null, .fromObj (.boolean true)]) _ rfl

/-- C130: at most as many for each octet of the result as the object has levels, and one more. -/
theorem C130_height (D : Deps) (o : BerObject) (b : Bytes) (h : toVec D o = .ok b) :
    (encodeObjectT D o).2 ≤ (height o + 1) * b.length := by
  rw [C130_exact D o b h, Nat.add_mul]
  have := lengths_le D o b h
  omega

example := C130_height Tests.D0 (.fromSeq [.fromObj .null, .fromObj (.boolean true)]) _ rfl

/-- C130: hence a linear number for the objects that the parsers return. -/
theorem C130_parsed (D : Deps) (d : Nat) (i rem b : Bytes) (o : BerObject)
    (h : parseBerRecursive D d i = .ok (rem, o)) (hb : toVec D o = .ok b) :
    (encodeObjectT D o).2 ≤ (d + 1) * b.length := by
  have h1 := C130_height D o b hb
  rw [height_assembled o (assembled_parse_ber h)] at h1
  have h2 := Nat.mul_le_mul_right b.length (Nat.succ_le_succ (C13_depth_exact D d i rem o h).1)
  exact Nat.le_trans h1 h2

example := C130_parsed Tests.D0 50 [0x30, 0x80, 0x05, 0x00, 0, 0, 9] [9] _ _ rfl rfl

namespace Tests
/-- `k + 1` SEQUENCEs inside each other, the innermost one empty. -/
def nestSeq : Nat → BerObject
  | 0 => .fromSeq []
  | k + 1 => .fromSeq [nestSeq k]
end Tests
open Tests

theorem encodeLength_size (n : Nat) :
    1 ≤ (encodeLength (.definite n)).length ∧ (encodeLength (.definite n)).length ≤ 9 := by
  have h8 : ∀ m v, (toBeBytes m v).length = m := by
    intro m
    induction m with
    | zero => intro v; rfl
    | succ m ih => intro v; rw [toBeBytes, List.length_cons, ih]
  unfold encodeLength
  dsimp only
  split
  · simp
  · have h1 := (List.dropWhile_sublist (l := toBeBytes 8 n) (· == 0)).length_le
    rw [h8] at h1
    simp only [skipZeroes, List.length_cons]
    omega

theorem encodeObject_fromSeq {D : Deps} {l : List BerObject} {x : Bytes} (h : encodeList D l = .ok x) :
    ∃ b, encodeObject D (.fromSeq l) = .ok b ∧ x.length + 2 ≤ b.length ∧ b.length ≤ x.length + 10 := by
  have h1 := encodeLength_size x.length
  refine ⟨0x30 :: encodeLength (.definite x.length) ++ x, ?_, ?_, ?_⟩
  · have h2 : encodeHeader ({ (BerObject.fromSeq l).header with length := .definite x.length }) =
        .ok (0x30 :: encodeLength (.definite x.length)) := rfl
    have h3 : encodeContent D (.sequence l) = .ok x := by rw [encodeContent]; exact h
    rw [show BerObject.fromSeq l = .mk (BerObject.fromSeq l).header (.sequence l) from rfl, encodeObject, h3, ok_bind, h2,
      ok_bind]
  · simp; omega
  · simp; omega

/-- C130: for objects that a program builds there is no such bound: `k + 1` SEQUENCEs inside each other are written as at most
`10 * (k + 1)` octets, but at least `(k + 1) * (k + 4)` octets are copied. -/
theorem C130_quadratic (D : Deps) (k : Nat) : ∃ b, toVec D (nestSeq k) = .ok b ∧ b.length ≤ 10 * (k + 1) ∧
    (k + 1) * (k + 4) ≤ (encodeObjectT D (nestSeq k)).2 := by
  have key : ∀ k, ∃ b, encodeObject D (nestSeq k) = .ok b ∧ 2 * (k + 1) ≤ b.length ∧ b.length ≤ 10 * (k + 1) ∧
      (k + 1) * (k + 2) ≤ lengths D (nestSeq k) := by
    intro k
    induction k with
    | zero =>
      refine ⟨[0x30, 0x00], rfl, by simp, by simp, ?_⟩
      have : lengths D (nestSeq 0) = 2 := rfl
      omega
    | succ k ih =>
      obtain ⟨x, h1, h2, h3, h4⟩ := ih
      obtain ⟨b, h5, h6, h7⟩ := encodeObject_fromSeq (D := D) (l := [nestSeq k]) (x := x)
        (by simp [encodeList, h1])
      refine ⟨b, h5, by omega, by omega, ?_⟩
      have h8 : lengths D (nestSeq (k + 1)) = b.length + (lengths D (nestSeq k) + 0) := by
        rw [show nestSeq (k + 1) = .mk (nestSeq (k + 1)).header (.sequence [nestSeq k]) from rfl, lengths, lengthsC,
          lengthsL, lengthsL, show BerObject.mk (nestSeq (k + 1)).header (.sequence [nestSeq k]) =
            .fromSeq [nestSeq k] from rfl, toVec, h5]
      have h9 : (k + 1 + 1) * (k + 1 + 2) = (k + 1) * (k + 2) + 2 * (k + 2) := by
        rw [Nat.mul_comm, Nat.add_mul]
      omega
  obtain ⟨b, h1, h2, h3, h4⟩ := key k
  refine ⟨b, h1, h3, ?_⟩
  rw [C130_exact D _ b h1]
  have : (k + 1) * (k + 4) = (k + 1) * (k + 2) + 2 * (k + 1) := by
    rw [show k + 4 = (k + 2) + 2 from rfl, Nat.mul_add (k + 1) (k + 2)]; omega
  omega

/-- C130 on one object: SEQUENCE { NULL, [0] BOOLEAN } is written as 9 octets; 9 + 9 + 2 + 5 + 3 are copied. -/
example : encodeObjectT Tests.D0 (.fromSeq [.fromObj .null,
      .mk ⟨.contextSpecific, true, 0, .definite 3, none⟩ (.tagged .contextSpecific 0 (.fromObj (.boolean true)))]) =
    (.ok [0x30, 0x07, 0x05, 0x00, 0xa0, 0x03, 0x01, 0x01, 0xff], 28) := by rfl

end Verif
