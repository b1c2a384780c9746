import Verif.Nesting
import Verif.Props.CostExact
import Verif.Props.Der
import Verif.Props.Limits
import Verif.Props.Print
import Verif.Props.Serialize
import Verif.Tests
/-!
# Nesting of recursive calls: C112
-/
namespace Verif
open Outcome Spec

/-! ## The counted functions give the same results -/

section
variable {ε ε' α β : Type}

@[simp] theorem Deep.fst_bind (x : Deep ε α) (f : α → Deep ε β) :
    (x.bind f).1 = (x.1 >>? fun a => (f a).1) := by
  unfold Deep.bind
  cases x.1 <;> rfl
@[simp] theorem Deep.fst_flat (x : Outcome ε α) : (Deep.flat x).1 = x := rfl
@[simp] theorem Deep.fst_call (x : Deep ε α) : (Deep.call x).1 = x.1 := rfl
@[simp] theorem Deep.fst_mapErr (f : ε → ε') (x : Deep ε α) : (x.mapErr f).1 = x.1.mapErr f := rfl
@[simp] theorem Deep.fst_map (f : α → β) (x : Deep ε α) : (x.map f).1 = x.1.map f := rfl
@[simp] theorem Deep.snd_flat (x : Outcome ε α) : (Deep.flat x).2 = 0 := rfl
@[simp] theorem Deep.snd_call (x : Deep ε α) : (Deep.call x).2 = x.2 + 1 := rfl
@[simp] theorem Deep.snd_mapErr (f : ε → ε') (x : Deep ε α) : (x.mapErr f).2 = x.2 := rfl
@[simp] theorem Deep.snd_map (f : α → β) (x : Deep ε α) : (x.map f).2 = x.2 := rfl

theorem Deep.bind_le {x : Deep ε α} {g : α → Deep ε β} {n : Nat} (h1 : x.2 ≤ n)
    (h2 : ∀ a, x.1 = .ok a → (g a).2 ≤ n) : (x.bind g).2 ≤ n := by
  unfold Deep.bind
  match hq : x.1 with
  | .ok a => exact Nat.max_le.2 ⟨h1, h2 a hq⟩
  | .err _ | .panic | .diverge => exact h1

theorem Deep.bind_ok {x : Deep ε α} {g : α → Deep ε β} {b : β} (h : (x.bind g).1 = .ok b) :
    ∃ a, x.1 = .ok a ∧ (g a).1 = .ok b ∧ (x.bind g).2 = max x.2 (g a).2 := by
  unfold Deep.bind at *
  match hq : x.1 with
  | .ok a => rw [hq] at h; exact ⟨a, rfl, h, rfl⟩
  | .err _ | .panic | .diverge => rw [hq] at h; cases h

theorem Deep.mapErr_ok {x : Deep ε α} {g : ε → ε'} {a : α} (h : (x.mapErr g).1 = .ok a) :
    x.1 = .ok a := by
  have h : x.1.mapErr g = .ok a := h
  match hq : x.1 with
  | .ok b => rw [hq] at h; cases h; rfl
  | .err _ | .panic | .diverge => rw [hq] at h; cases h
end

theorem skipLoopN_fst (skip : Header → Bytes → Deep (NomErr BerError) (Bytes × Bool)) (fuel : Nat)
    (i : Bytes) : (skipLoopN skip fuel i).1 = skipLoop (fun h i => (skip h i).1) fuel i := by
  induction fuel generalizing i with
  | zero => rfl
  | succ fuel ih =>
    simp only [skipLoopN, skipLoop, Deep.fst_bind, Deep.fst_flat]
    congr 1; funext r2; congr 1; funext r3
    split <;> simp [ih]

theorem skipContentN_fst (d : Nat) : ∀ h i, (skipContentN d h i).1 = skipContent d h i := by
  induction d with
  | zero => intro h i; rfl
  | succ d ih =>
    intro h i
    rw [skipContentN, skipContent, Deep.fst_call]
    cases h.length with
    | definite l => rfl
    | indefinite =>
      dsimp only
      split
      · rw [skipLoopN_fst]
        have : (fun h i => (skipContentN d h i).1) = skipContent d := by funext h i; exact ih h i
        rw [this]
      · rfl

theorem getObjectContentN_fst (d : Nat) (h : Header) (i : Bytes) :
    (getObjectContentN d h i).1 = getObjectContent d h i := by
  simp only [getObjectContentN, getObjectContent, Deep.fst_bind, skipContentN_fst, Deep.fst_flat]

theorem anyFromBerN_fst (i : Bytes) : (anyFromBerN i).1 = anyFromBer i := by
  simp only [anyFromBerN, anyFromBer, Deep.fst_bind, Deep.fst_flat, getObjectContentN_fst]

theorem collectItemsN_fst (conv : Any → Deep BerError BerObject) (fuel : Nat) (data : Bytes) :
    (collectItemsN conv fuel data).1 = collectItems (fun a => (conv a).1) fuel data := by
  induction fuel generalizing data with
  | zero => rfl
  | succ fuel ih =>
    cases data with
    | nil => rfl
    | cons b data =>
      simp only [collectItemsN, collectItems, Deep.fst_bind, Deep.fst_mapErr, anyFromBerN_fst, ih,
        Deep.fst_flat]

theorem universalContentN_fst (D : Deps) (conv : Any → Deep BerError BerObject) (a : Any) :
    (universalContentN D conv a).1 = universalContent D (fun b => (conv b).1) a := by
  unfold universalContentN
  split
  · rename_i h
    simp only [Deep.fst_bind, Deep.fst_flat, Deep.fst_map, collectItemsN_fst, universalContent, h]
  · rename_i h
    simp only [Deep.fst_bind, Deep.fst_flat, Deep.fst_map, collectItemsN_fst, universalContent, h]
  · rfl

theorem objectFromAnyN_fst (D : Deps) (d : Nat) : ∀ a, (objectFromAnyN D d a).1 = objectFromAny D d a := by
  induction d with
  | zero => intro a; rfl
  | succ d ih =>
    intro a
    rw [objectFromAnyN, objectFromAny, Deep.fst_call]
    split
    · rfl
    · rw [Deep.fst_map, universalContentN_fst]
      have : (fun b => (objectFromAnyN D d b).1) = objectFromAny D d := by funext b; exact ih b
      rw [this]

theorem berReadElementContentAsN_fst (D : Deps) (i : Bytes) (tag : Nat) (length : Length)
    (constructed : Bool) (d : Nat) :
    (berReadElementContentAsN D i tag length constructed d).1 =
      berReadElementContentAs D i tag length constructed d := by
  unfold berReadElementContentAsN berReadElementContentAs
  cases length with
  | definite l =>
    dsimp only
    split
    · rfl
    · split
      · rfl
      · simp only [Deep.fst_bind, getObjectContentN_fst, Deep.fst_mapErr, objectFromAnyN_fst,
          Deep.fst_flat]
        rfl
  | indefinite =>
    simp only [Deep.fst_bind, getObjectContentN_fst, Deep.fst_mapErr, objectFromAnyN_fst,
      Deep.fst_flat]
    rfl

theorem derReadElementContentAsN_fst (D : Deps) (i : Bytes) (tag : Nat) (length : Length)
    (constructed : Bool) (d : Nat) :
    (derReadElementContentAsN D i tag length constructed d).1 =
      derReadElementContentAs D i tag length constructed d := by
  unfold derReadElementContentAsN derReadElementContentAs
  simp only [Deep.fst_bind, Deep.fst_flat]
  congr 1; funext l
  split
  · rfl
  · split
    · rfl
    · simp only [Deep.fst_bind, Deep.fst_flat, berReadElementContentAsN_fst]

theorem derUnknownN_fst (i : Bytes) (h : Header) (d : Nat) :
    (derUnknownN i h d).1 = derUnknown i h d := by
  simp only [derUnknownN, derUnknown, Deep.fst_bind, getObjectContentN_fst, Deep.fst_flat]

theorem derReadElementContentRecursiveN_fst (D : Deps) (i : Bytes) (h : Header) (d : Nat) :
    (derReadElementContentRecursiveN D i h d).1 = derReadElementContentRecursive D i h d := by
  unfold derReadElementContentRecursiveN derReadElementContentRecursive
  split
  · exact derUnknownN_fst i h d
  · dsimp only
    rw [derReadElementContentAsN_fst]
    split <;> simp_all [derUnknownN_fst]

theorem removeZeroesN_fst : ∀ bs, (removeZeroesN bs).1 = removeZeroes bs
  | [] => rfl
  | [_] => rfl
  | b :: c :: rest => by
    rw [removeZeroesN, removeZeroes]
    split
    · exact removeZeroesN_fst (c :: rest)
    · rfl

theorem decodeArrayUintN_fst (n : Nat) (bs : Bytes) : (decodeArrayUintN n bs).1 = decodeArrayUint n bs := by
  unfold decodeArrayUintN decodeArrayUint
  split
  · rfl
  · simp only [removeZeroesN_fst]

theorem decodeArrayIntN_fst (n : Nat) (bs : Bytes) : (decodeArrayIntN n bs).1 = decodeArrayInt n bs := by
  simp only [decodeArrayIntN, decodeArrayInt, removeZeroesN_fst]

mutual
theorem encodeContentN_fst (D : Deps) (c : Content) : (encodeContentN D c).1 = encodeContent D c := by
  match c with
  | .sequence l => rw [encodeContentN, encodeContent]; exact encodeListN_fst D l
  | .set l => rw [encodeContentN, encodeContent]; exact encodeListN_fst D l
  | .optionalSome o => rw [encodeContentN, encodeContent]; exact encodeInnerContentN_fst D o
  | .tagged _ _ o => rw [encodeContentN, encodeContent]; exact encodeObjectN_fst D o
  | .boolean _ | .integer _ | .bitString _ _ | .octetString _ | .null | .enum _ | .oid _
  | .relativeOid _ | .str _ _ | .utcTime _ | .generalizedTime _ | .bmpString _
  | .universalString _ | .optionalNone | .endOfContent | .unknown _ => rw [encodeContentN] <;> simp
theorem encodeObjectN_fst (D : Deps) (o : BerObject) : (encodeObjectN D o).1 = encodeObject D o := by
  match o with
  | .mk h c =>
    simp only [encodeObjectN, encodeObject, Deep.fst_call, Deep.fst_bind, encodeContentN_fst D c,
      Deep.fst_flat]
theorem encodeInnerContentN_fst (D : Deps) (o : BerObject) :
    (encodeInnerContentN D o).1 = encodeInnerContent D o := by
  match o with
  | .mk h c => rw [encodeInnerContentN, encodeInnerContent]; exact encodeContentN_fst D c
theorem encodeListN_fst (D : Deps) (l : List BerObject) : (encodeListN D l).1 = encodeList D l := by
  match l with
  | [] => rfl
  | o :: os =>
    simp only [encodeListN, encodeList, Deep.fst_bind, encodeObjectN_fst D o, encodeListN_fst D os,
      Deep.fst_flat]
end

mutual
theorem visitObjN_fst {σ : Type} (v : Visitor σ) (o : BerObject) (d : Nat) (s : σ) :
    (visitObjN v o d s).1 = visitObj v o d s := by
  match o with
  | .mk h c => rw [visitObjN, visitObj]; exact visitContentN_fst v c d _
theorem visitContentN_fst {σ : Type} (v : Visitor σ) (c : Content) (d : Nat) (s : σ) :
    (visitContentN v c d s).1 = visitContent v c d s := by
  match c with
  | .sequence l => rw [visitContentN, visitContent]; exact visitListN_fst v l _ _
  | .set l => rw [visitContentN, visitContent]; exact visitListN_fst v l _ _
  | .boolean _ | .integer _ | .bitString _ _ | .octetString _ | .null | .enum _ | .oid _
  | .relativeOid _ | .str _ _ | .utcTime _ | .generalizedTime _ | .bmpString _
  | .universalString _ | .optionalNone | .optionalSome _ | .tagged _ _ _ | .endOfContent
  | .unknown _ => simp only [visitContentN, visitContent]
theorem visitListN_fst {σ : Type} (v : Visitor σ) (l : List BerObject) (d : Nat) (s : σ) :
    (visitListN v l d s).1 = visitList v l d s := by
  match l with
  | [] => rfl
  | o :: os =>
    rw [visitListN, visitList]
    dsimp only
    rw [visitListN_fst v os, visitObjN_fst v o]
end

mutual
theorem fmtObjN_fst (P : PrintDeps) (p : PrettyBer) (o : BerObject) :
    (fmtObjN P p o).1 = fmtObj P p o := by
  match o with
  | .mk h c => rw [fmtObjN, fmtObj]; dsimp only; rw [fmtContentN_fst P p h c]
theorem fmtContentN_fst (P : PrintDeps) (p : PrettyBer) (h : Header) (c : Content) :
    (fmtContentN P p h c).1 = fmtContent P p h c := by
  match c with
  | .sequence l => rw [fmtContentN, fmtContent, ← fmtListN_fst P p l]; split <;> rfl
  | .set l => rw [fmtContentN, fmtContent, ← fmtListN_fst P p l]; split <;> rfl
  | .tagged _ _ o => rw [fmtContentN, fmtContent]; dsimp only; rw [fmtObjN_fst P _ o]
  | .boolean _ | .integer _ | .bitString _ _ | .octetString _ | .null | .enum _ | .oid _
  | .relativeOid _ | .str _ _ | .utcTime _ | .generalizedTime _ | .bmpString _
  | .universalString _ | .optionalNone | .optionalSome _ | .endOfContent | .unknown _ =>
    rw [fmtContentN] <;> simp
theorem fmtListN_fst (P : PrintDeps) (p : PrettyBer) (l : List BerObject) :
    (fmtListN P p l).1 = fmtList P p l := by
  match l with
  | [] => rfl
  | o :: os =>
    rw [fmtListN, fmtList]
    dsimp only
    rw [fmtObjN_fst P _ o, fmtListN_fst P p os]
end

/-- C112: counting does not change the results of the parsers. -/
theorem C112_same_results (D : Deps) (d t : Nat) (i : Bytes) :
    (parseBerRecursiveN D d i).1 = parseBerRecursive D d i ∧
    (parseBerWithTagN D t i).1 = parseBerWithTag D t i ∧
    (parseDerRecursiveN D d i).1 = parseDerRecursive D d i ∧
    (parseDerWithTagN D t i).1 = parseDerWithTag D t i := by
  refine ⟨?_, ?_, ?_, ?_⟩
  · unfold parseBerRecursiveN parseBerRecursive parseBerAnyR
    split
    · rfl
    · simp only [Deep.fst_bind, anyFromBerN_fst, Deep.fst_mapErr, objectFromAnyN_fst, Deep.fst_flat]
      rfl
  · simp only [parseBerWithTagN, parseBerWithTag, Deep.fst_bind, Deep.fst_flat,
      berReadElementContentAsN_fst]
  · simp only [parseDerRecursiveN, parseDerRecursive, Deep.fst_bind, Deep.fst_flat]
    congr 1; funext r
    cases r.2.length with
    | definite l =>
      dsimp only
      split
      · rfl
      · exact derReadElementContentRecursiveN_fst ..
    | indefinite => exact derReadElementContentRecursiveN_fst ..
  · simp only [parseDerWithTagN, parseDerWithTag, Deep.fst_bind, Deep.fst_flat,
      derReadElementContentAsN_fst]

/-- C112: nor those of the functions on objects. -/
theorem C112_same_results_objects {σ : Type} (D : Deps) (P : PrintDeps) (v : Visitor σ) (o : BerObject)
    (p : PrettyBer) (d n : Nat) (s : σ) :
    (o.content.asSignedIntN n).1 = o.content.asSignedInt n ∧ o.content.asU64N.1 = o.content.asU64 ∧
    o.content.asU32N.1 = o.content.asU32 ∧ (encodeObjectN D o).1 = toVec D o ∧
    (visitObjN v o d s).1 = v.runAt o d s ∧ (fmtObjN P p p.obj).1 = p.fmt P := by
  refine ⟨?_, ?_, ?_, encodeObjectN_fst D o, visitObjN_fst v o d s, fmtObjN_fst P p p.obj⟩
  · cases o.content with
    | integer bs =>
      simp only [Content.asSignedIntN, Content.asSignedInt]
      split
      · rw [Deep.fst_map, decodeArrayIntN_fst]
      · rw [Deep.fst_map, decodeArrayUintN_fst]
    | _ => rfl
  · cases o.content with
    | integer bs => simp only [Content.asU64N, Content.asU64, Deep.fst_map, decodeArrayUintN_fst]
    | _ => rfl
  · cases o.content with
    | integer bs => simp only [Content.asU32N, Content.asU32, Deep.fst_map, decodeArrayUintN_fst]
    | _ => rfl

/-! ## Parsers -/

theorem skipLoopN_le {skip : Header → Bytes → Deep (NomErr BerError) (Bytes × Bool)} {n : Nat}
    (hs : ∀ h i, (skip h i).2 ≤ n) (fuel : Nat) : ∀ i, (skipLoopN skip fuel i).2 ≤ n := by
  induction fuel with
  | zero => intro i; exact Nat.zero_le _
  | succ fuel ih =>
    intro i
    rw [skipLoopN]
    refine Deep.bind_le (Nat.zero_le _) fun r2 _ => Deep.bind_le (hs _ _) fun r3 _ => ?_
    split
    · exact Nat.zero_le _
    · exact ih _

theorem skipContentN_le (d : Nat) : ∀ h i, (skipContentN d h i).2 ≤ d + 1 := by
  induction d with
  | zero => intro h i; exact Nat.le_refl _
  | succ d ih =>
    intro h i
    rw [skipContentN, Deep.snd_call]
    have := skipLoopN_le ih (i.length + 1) i
    cases h.length with
    | definite l => simp
    | indefinite =>
      dsimp only
      split
      · omega
      · simp

theorem skipContentN_definite {d : Nat} {h : Header} (hl : h.length ≠ .indefinite) (i : Bytes) :
    (skipContentN d h i).2 = 1 := by
  cases d with
  | zero => rfl
  | succ d =>
    rw [skipContentN, Deep.snd_call]
    cases hq : h.length with
    | definite l => rfl
    | indefinite => exact absurd hq hl

theorem getObjectContentN_le (d : Nat) (h : Header) (i : Bytes) : (getObjectContentN d h i).2 ≤ d + 1 :=
  Deep.bind_le (skipContentN_le d h i) fun _ _ => Nat.zero_le _

theorem getObjectContentN_definite {d : Nat} {h : Header} (hl : h.length ≠ .indefinite) (i : Bytes) :
    (getObjectContentN d h i).2 = 1 := by
  unfold getObjectContentN Deep.bind
  match hq : (skipContentN d h i).1 with
  | .ok a => simp [skipContentN_definite hl]
  | .err _ | .panic | .diverge => exact skipContentN_definite hl i

theorem anyFromBerN_le (i : Bytes) : (anyFromBerN i).2 ≤ 51 :=
  Deep.bind_le (Nat.zero_le _) fun _ _ => Deep.bind_le (getObjectContentN_le _ _ _) fun _ _ => Nat.zero_le _

theorem anyFromBerN_definite {i : Bytes} {r : Bytes × Any} (hr : (anyFromBerN i).1 = .ok r)
    (hl : r.2.header.length ≠ .indefinite) : (anyFromBerN i).2 = 1 := by
  unfold anyFromBerN at hr ⊢
  obtain ⟨a, h1, h2, h3⟩ := Deep.bind_ok hr
  obtain ⟨s, h4, h5, h6⟩ := Deep.bind_ok h2
  rw [h3, h6]
  have h5 : (Outcome.ok (s.1, { header := a.2, data := s.2 }) : Outcome (NomErr BerError) _) = .ok r := h5
  cases h5
  rw [getObjectContentN_definite hl]
  rfl

theorem collectItemsN_le {conv : Any → Deep BerError BerObject} {n : Nat} (h51 : 51 ≤ n)
    (hc : ∀ a, (conv a).2 ≤ n) (fuel : Nat) : ∀ data, (collectItemsN conv fuel data).2 ≤ n := by
  induction fuel with
  | zero => intro data; exact Nat.zero_le _
  | succ fuel ih =>
    intro data
    cases data with
    | nil => exact Nat.zero_le _
    | cons b data =>
      rw [collectItemsN]
      refine Deep.bind_le (Nat.le_trans (anyFromBerN_le _) h51) fun r _ =>
        Deep.bind_le (hc _) fun o _ => Deep.bind_le (ih _) fun _ _ => Nat.zero_le _

theorem universalContentN_le {D : Deps} {conv : Any → Deep BerError BerObject} {n : Nat} (h51 : 51 ≤ n)
    (hc : ∀ a, (conv a).2 ≤ n) (a : Any) : (universalContentN D conv a).2 ≤ n := by
  unfold universalContentN
  split
  · exact Deep.bind_le (Nat.zero_le _) fun _ _ => collectItemsN_le h51 hc _ _
  · exact Deep.bind_le (Nat.zero_le _) fun _ _ => collectItemsN_le h51 hc _ _
  · exact Nat.zero_le _

theorem objectFromAnyN_le (D : Deps) (d : Nat) : ∀ a, (objectFromAnyN D d a).2 ≤ d + 51 := by
  induction d with
  | zero => intro a; exact (by decide : 1 ≤ 51)
  | succ d ih =>
    intro a
    rw [objectFromAnyN, Deep.snd_call]
    split
    · simp
    · rw [Deep.snd_map]
      have := universalContentN_le (D := D) (by omega : 51 ≤ d + 51) ih a
      omega

theorem berReadElementContentAsN_le (D : Deps) (i : Bytes) (tag : Nat) (length : Length)
    (constructed : Bool) (d : Nat) : (berReadElementContentAsN D i tag length constructed d).2 ≤ d + 51 := by
  have go : ((getObjectContentN d (Header.new .universal constructed tag length) i).bind
      fun r => ((objectFromAnyN D d
        { header := Header.new .universal constructed tag length, data := r.2 }).mapErr
          NomErr.error).bind fun o => .flat (.ok (r.1, o.content))).2 ≤ d + 51 := by
    refine Deep.bind_le ?_ fun r _ => Deep.bind_le (objectFromAnyN_le D d _) fun _ _ => Nat.zero_le _
    have := getObjectContentN_le d (Header.new .universal constructed tag length) i
    omega
  unfold berReadElementContentAsN
  cases length with
  | indefinite => exact go
  | definite l =>
    dsimp only
    split
    · exact Nat.zero_le _
    · split
      · exact Nat.zero_le _
      · exact go

theorem derReadElementContentAsN_le (D : Deps) (i : Bytes) (tag : Nat) (length : Length)
    (constructed : Bool) (d : Nat) : (derReadElementContentAsN D i tag length constructed d).2 ≤ d + 51 := by
  unfold derReadElementContentAsN
  refine Deep.bind_le (Nat.zero_le _) fun l _ => ?_
  split
  · exact Nat.zero_le _
  · split
    · exact Nat.zero_le _
    · exact Deep.bind_le (Nat.zero_le _) fun _ _ => berReadElementContentAsN_le ..

theorem derUnknownN_le (i : Bytes) (h : Header) (d : Nat) : (derUnknownN i h d).2 ≤ d + 1 :=
  Deep.bind_le (getObjectContentN_le d h i) fun _ _ => Nat.zero_le _

theorem derReadElementContentRecursiveN_le (D : Deps) (i : Bytes) (h : Header) (d : Nat) :
    (derReadElementContentRecursiveN D i h d).2 ≤ d + 51 := by
  have h1 := derUnknownN_le i h d
  have h2 := derReadElementContentAsN_le D i h.tag h.length h.constructed d
  unfold derReadElementContentRecursiveN
  split
  · omega
  · dsimp only
    split <;> dsimp only <;> omega

/-- C112: whatever the input, a parser with recursion limit `d` never has more than `d + 51`
activations of recursive functions open, on success or on failure; for `parse_ber`, `parse_der` and the
typed parsers that is 101. -/
theorem C112_parsers (D : Deps) (d t : Nat) (i : Bytes) :
    (parseBerRecursiveN D d i).2 ≤ d + 51 ∧ (parseDerRecursiveN D d i).2 ≤ d + 51 ∧
    (parseBerWithTagN D t i).2 ≤ 101 ∧ (parseDerWithTagN D t i).2 ≤ 101 := by
  refine ⟨?_, ?_, ?_, ?_⟩
  · unfold parseBerRecursiveN
    split
    · exact Nat.zero_le _
    · refine Deep.bind_le ?_ fun r _ => Deep.bind_le (objectFromAnyN_le D d _) fun _ _ => Nat.zero_le _
      have := anyFromBerN_le i
      omega
  · refine Deep.bind_le (Nat.zero_le _) fun r _ => ?_
    have := derReadElementContentRecursiveN_le D r.1 r.2 d
    split
    · split
      · exact Nat.zero_le _
      · exact this
    · exact this
  · exact Deep.bind_le (Nat.zero_le _) fun r _ => Deep.bind_le (Nat.zero_le _) fun _ _ =>
      Deep.bind_le (berReadElementContentAsN_le D r.1 r.2.tag r.2.length r.2.constructed 50)
        fun _ _ => Nat.zero_le _
  · exact Deep.bind_le (Nat.zero_le _) fun r _ => Deep.bind_le (Nat.zero_le _) fun _ _ =>
      Deep.bind_le (derReadElementContentAsN_le D r.1 r.2.tag r.2.length r.2.constructed 50)
        fun _ _ => Nat.zero_le _

/-- The bound is attained: 50 SEQUENCEs of definite length around 52 of indefinite length. -/
def deepest : Nat → Bytes
  | 0 => (List.replicate 52 [0x30, 0x80]).flatten
  | n + 1 =>
    let c := deepest n
    0x30 :: 0x82 :: UInt8.ofNat (c.length / 256) :: UInt8.ofNat c.length :: c

set_option maxRecDepth 100000 in
/-- C112: the bound cannot be improved: this input of 304 octets makes `parse_ber` nest 101 calls. -/
theorem C112_parsers_attained (D : Deps) :
    (deepest 50).length = 304 ∧ (parseBerRecursiveN D 50 (deepest 50)).2 = 101 := by
  refine ⟨by decide +kernel, by rfl⟩

/-! ### Accepted inputs -/

namespace Spec

/-- On success `x` nests at least `f a` and at most `f a + 50` calls, and exactly `f a` if `P a`. -/
def Nested {ε α : Type} (x : Deep ε α) (f : α → Nat) (P : α → Prop) : Prop :=
  ∀ a, x.1 = .ok a → f a ≤ x.2 ∧ x.2 ≤ f a + 50 ∧ (P a → x.2 = f a)

end Spec

theorem nested_collect {conv : Any → Deep BerError BerObject}
    (hc : ∀ a, Nested (conv a) depth AllDefinite)
    (hh : ∀ a o, (conv a).1 = .ok o → o.header = a.header) (fuel : Nat) :
    ∀ data, Nested (collectItemsN conv fuel data) listDepth fun os => ∀ o ∈ os, AllDefinite o := by
  induction fuel with
  | zero => intro data os h; cases h
  | succ fuel ih =>
    intro data
    cases data with
    | nil =>
      intro os h
      cases h
      exact ⟨Nat.le_refl _, Nat.zero_le _, fun _ => rfl⟩
    | cons b data =>
      intro os h
      rw [collectItemsN] at h ⊢
      obtain ⟨r, h1, h2, h3⟩ := Deep.bind_ok h
      obtain ⟨o, h4, h5, h6⟩ := Deep.bind_ok h2
      obtain ⟨os', h7, h8, h9⟩ := Deep.bind_ok h5
      have h8 : (Outcome.ok (o :: os') : Outcome BerError _) = .ok os := h8
      cases h8
      obtain ⟨a1, a2, a3⟩ := hc _ _ h4
      obtain ⟨b1, b2, b3⟩ := ih _ _ h7
      have h1 := Deep.mapErr_ok h1
      have ha := anyFromBerN_le (b :: data)
      have hp := depth_pos o
      rw [h3, h6, h9, Deep.snd_mapErr, Deep.snd_flat, listDepth]
      refine ⟨by omega, by omega, fun hP => ?_⟩
      have hd := hP o (by simp)
      rw [anyFromBerN_definite h1 (by rw [← hh _ _ h4]; exact hd _ .self), a3 hd,
        b3 fun o' ho' => hP o' (by simp [ho'])]
      omega

theorem nested_objectFromAny (D : Deps) (d : Nat) :
    ∀ a, Nested (objectFromAnyN D d a) depth AllDefinite := by
  induction d with
  | zero => intro a o h; cases h
  | succ d ih =>
    intro a o h
    have hh : ∀ a o, (objectFromAnyN D d a).1 = .ok o → o.header = a.header := by
      intro a o h
      rw [objectFromAnyN_fst] at h
      exact objectFromAny_header h
    rw [objectFromAnyN] at h ⊢
    rw [Deep.snd_call]
    rw [Deep.fst_call] at h
    split at h
    · rename_i hu
      rw [if_pos hu]
      cases h
      exact ⟨Nat.le_refl _, by simp [depth, contentDepth], fun _ => rfl⟩
    · rename_i hu
      rw [if_neg hu]
      rw [Deep.fst_map] at h
      rw [Deep.snd_map]
      obtain ⟨x, hx, rfl⟩ := map_eq_ok.1 h
      rw [depth]
      unfold universalContentN at hx ⊢
      split at hx
      · obtain ⟨u, h1, h2, h3⟩ := Deep.bind_ok hx
        rw [Deep.fst_map] at h2
        obtain ⟨l, h4, rfl⟩ := map_eq_ok.1 h2
        obtain ⟨b1, b2, b3⟩ := nested_collect ih hh _ _ l h4
        rw [h3, Deep.snd_flat, Deep.snd_map, contentDepth]
        refine ⟨by omega, by omega, fun hP => ?_⟩
        rw [b3 fun o ho o' hn => hP o' (.seq _ l o ho hn)]
        omega
      · obtain ⟨u, h1, h2, h3⟩ := Deep.bind_ok hx
        rw [Deep.fst_map] at h2
        obtain ⟨l, h4, rfl⟩ := map_eq_ok.1 h2
        obtain ⟨b1, b2, b3⟩ := nested_collect ih hh _ _ l h4
        rw [h3, Deep.snd_flat, Deep.snd_map, contentDepth]
        refine ⟨by omega, by omega, fun hP => ?_⟩
        rw [b3 fun o ho o' hn => hP o' (.set _ l o ho hn)]
        omega
      · rename_i k1 k2
        have := contentDepth_leaf ((universalContent_leaf (conv' := fun b => (objectFromAnyN D d b).1)
          (by exact k1) (by exact k2)).2 x hx)
        rw [this]
        exact ⟨by simp, by simp, fun _ => rfl⟩

/-- C112: on an accepted input `parse_ber` nests at least as many calls as the returned object is deep
and at most 50 more, and exactly as many if no length is indefinite. -/
theorem C112_parse_ber_accepted (D : Deps) (d : Nat) (i rem : Bytes) (o : BerObject)
    (h : parseBerRecursive D d i = .ok (rem, o)) :
    depth o ≤ (parseBerRecursiveN D d i).2 ∧ (parseBerRecursiveN D d i).2 ≤ depth o + 50 ∧
    (AllDefinite o → (parseBerRecursiveN D d i).2 = depth o) := by
  rw [← (C112_same_results D d 0 i).1] at h
  unfold parseBerRecursiveN at h ⊢
  split at h
  · cases h
  · rename_i hd
    rw [if_neg hd]
    obtain ⟨r, h1, h2, h3⟩ := Deep.bind_ok h
    obtain ⟨o', h4, h5, h6⟩ := Deep.bind_ok h2
    have h5 : (Outcome.ok (r.1, o') : Outcome (NomErr BerError) _) = .ok (rem, o) := h5
    cases h5
    have h4 := Deep.mapErr_ok h4
    obtain ⟨a1, a2, a3⟩ := nested_objectFromAny D d _ _ h4
    rw [objectFromAnyN_fst] at h4
    have ha := anyFromBerN_le i
    have hp := depth_pos o
    rw [h3, h6, Deep.snd_mapErr, Deep.snd_flat]
    refine ⟨by omega, by omega, fun hP => ?_⟩
    rw [anyFromBerN_definite h1 (by rw [← objectFromAny_header h4]; exact hP _ .self), a3 hP]
    omega

/-- Two levels of indefinite length. -/
example := C112_parse_ber_accepted Tests.D0 50 [0x30, 0x80, 0x30, 0x80, 0, 0, 0, 0] [] _ rfl

/-! ### At any limit -/

theorem cut_collect {D : Deps} {d d' : Nat}
    (ih : ∀ a o, objectFromAny D d' a = .ok o → AllDefinite o →
      (objectFromAnyN D d a).2 = min (depth o) (d + 1)) (fuel : Nat) :
    ∀ data os, collectItems (objectFromAny D d') fuel data = .ok os → (∀ o ∈ os, AllDefinite o) →
      (collectItemsN (objectFromAnyN D d) fuel data).2 = min (listDepth os) (d + 1) := by
  induction fuel with
  | zero => intro data os h; cases h
  | succ fuel ihf =>
    intro data os h hP
    cases data with
    | nil => cases h; simp [collectItemsN, listDepth]
    | cons b data =>
      rw [collectItems] at h
      rw [collectItemsN]
      obtain ⟨r, h1, h2⟩ := bind_eq_ok.1 h
      obtain ⟨o, h3, h4⟩ := bind_eq_ok.1 h2
      obtain ⟨os', h5, h6⟩ := bind_eq_ok.1 h4
      cases h6
      have hd := hP o (by simp)
      have a1 := ih _ _ h3 hd
      have a2 := ihf _ _ h5 fun x hx => hP x (by simp [hx])
      have hp := depth_pos o
      have e0 : (anyFromBerN (b :: data)).1 = .ok r := by
        rw [anyFromBerN_fst]
        match hq : anyFromBer (b :: data) with
        | .ok r' => rw [hq] at h1; cases h1; rfl
        | .err _ | .panic | .diverge => rw [hq] at h1; cases h1
      have e1 := anyFromBerN_definite e0 (by rw [← objectFromAny_header h3]; exact hd _ .self)
      have e2 : (objectFromAnyN D d r.2).1 = if depth o ≤ d then .ok o else .err .berMaxDepth := by
        rw [objectFromAnyN_fst]; exact objectFromAny_depth D h3 d
      have e3 : ((anyFromBerN (b :: data)).mapErr errOfNom).1 = .ok r := by
        rw [Deep.fst_mapErr, e0]; rfl
      unfold Deep.bind
      rw [e3]
      dsimp only
      rw [e2, Deep.snd_mapErr, e1, listDepth]
      by_cases hk : depth o ≤ d
      · rw [if_pos hk]
        dsimp only
        split
        · dsimp only; rw [a1, a2, Deep.snd_flat]; omega
        all_goals (dsimp only; rw [a1, a2]; omega)
      · rw [if_neg hk]
        dsimp only
        rw [a1]; omega

theorem cut_objectFromAny (D : Deps) (d : Nat) : ∀ d' a o, objectFromAny D d' a = .ok o → AllDefinite o →
    (objectFromAnyN D d a).2 = min (depth o) (d + 1) := by
  induction d with
  | zero =>
    intro d' a o _ _
    have := depth_pos o
    have e : (objectFromAnyN D 0 a).2 = 1 := rfl
    rw [e]; omega
  | succ d ih =>
    intro d' a o h hP
    cases d' with
    | zero => cases h
    | succ d' =>
    rw [objectFromAny] at h
    rw [objectFromAnyN, Deep.snd_call]
    split at h
    · rename_i hu
      rw [if_pos hu]
      cases h
      simp [depth, contentDepth]
    · rename_i hu
      rw [if_neg hu, Deep.snd_map]
      obtain ⟨x, hx, rfl⟩ := map_eq_ok.1 h
      rw [depth]
      have hcut := fun l (hl : ∀ o ∈ l, AllDefinite o) h =>
        cut_collect (fun a o => ih d' a o) (a.data.length + 1) a.data l h hl
      unfold universalContentN
      split
      · rename_i hk
        rw [universalContent_sequence hk] at hx
        obtain ⟨u, h1, h2⟩ := bind_eq_ok.1 hx
        obtain ⟨l, h4, rfl⟩ := map_eq_ok.1 h2
        have := hcut l (fun o ho o' hn => hP o' (.seq _ l o ho hn)) h4
        rw [contentDepth]
        unfold Deep.bind
        rw [Deep.fst_flat, h1]
        dsimp only
        rw [Deep.snd_flat, Deep.snd_map, this]; omega
      · rename_i hk
        rw [universalContent_set hk] at hx
        obtain ⟨u, h1, h2⟩ := bind_eq_ok.1 hx
        obtain ⟨l, h4, rfl⟩ := map_eq_ok.1 h2
        have := hcut l (fun o ho o' hn => hP o' (.set _ l o ho hn)) h4
        rw [contentDepth]
        unfold Deep.bind
        rw [Deep.fst_flat, h1]
        dsimp only
        rw [Deep.snd_flat, Deep.snd_map, this]; omega
      · rename_i k1 k2
        rw [contentDepth_leaf ((universalContent_leaf (conv' := objectFromAny D d')
          (by exact k1) (by exact k2)).2 x hx), Deep.snd_flat]
        omega

/-- C112: with a smaller limit than the object is deep, the calls stop one after the limit. -/
theorem C112_parse_ber_limited (D : Deps) (d d' : Nat) (i rem : Bytes) (o : BerObject)
    (h : parseBerRecursive D d' i = .ok (rem, o)) (hP : AllDefinite o) (hd : 1 ≤ d) :
    (parseBerRecursiveN D d i).2 = min (depth o) (d + 1) := by
  unfold parseBerRecursive parseBerAnyR at h
  split at h
  · cases h
  · obtain ⟨r, h1, h2⟩ := bind_eq_ok.1 h
    obtain ⟨o', h3, h4⟩ := bind_eq_ok.1 h2
    cases h4
    have h3 : objectFromAny D d' r.2 = .ok o := by
      match hq : objectFromAny D d' r.2 with
      | .ok r' => rw [hq] at h3; cases h3; rfl
      | .err _ | .panic | .diverge => rw [hq] at h3; cases h3
    have a1 := cut_objectFromAny D d d' _ _ h3 hP
    have e0 : (anyFromBerN i).1 = .ok r := by rw [anyFromBerN_fst]; exact h1
    have e1 := anyFromBerN_definite e0 (by rw [← objectFromAny_header h3]; exact hP _ .self)
    have hp := depth_pos o
    unfold parseBerRecursiveN
    rw [if_neg (by omega)]
    unfold Deep.bind
    rw [e0]
    dsimp only
    split <;> dsimp only <;> simp only [Deep.snd_mapErr, Deep.snd_flat] <;> omega

/-! ## Functions on objects -/

namespace Spec
mutual
/-- Nesting depth of an object, through SEQUENCE, SET, `Optional` and `Tagged`; 1 for a leaf. -/
def height : BerObject → Nat
  | .mk _ c => heightC c + 1
/-- Greatest height of the objects directly inside a content. -/
def heightC : Content → Nat
  | .sequence l => heightL l
  | .set l => heightL l
  | .optionalSome o => height o
  | .tagged _ _ o => height o
  | _ => 0
/-- Greatest height in a list. -/
def heightL : List BerObject → Nat
  | [] => 0
  | o :: os => max (height o) (heightL os)
end

/-- The parts of an object that the parsers of whole documents make: nothing but SEQUENCE and SET holds
other objects. -/
def Assembled (o : BerObject) : Prop :=
  ∀ o', Node o' o → (∀ x, o'.content ≠ .optionalSome x) ∧ ∀ k t x, o'.content ≠ .tagged k t x
end Spec

mutual
theorem depth_le_height (o : BerObject) : depth o ≤ height o := by
  match o with
  | .mk h c =>
    rw [depth, height]
    match c with
    | .sequence l => rw [contentDepth, heightC]; have := listDepth_le_heightL l; omega
    | .set l => rw [contentDepth, heightC]; have := listDepth_le_heightL l; omega
    | .boolean _ | .integer _ | .bitString _ _ | .octetString _ | .null | .enum _ | .oid _
    | .relativeOid _ | .str _ _ | .utcTime _ | .generalizedTime _ | .bmpString _
    | .universalString _ | .optionalNone | .optionalSome _ | .tagged _ _ _ | .endOfContent
    | .unknown _ => rw [contentDepth] <;> simp
theorem listDepth_le_heightL (l : List BerObject) : listDepth l ≤ heightL l := by
  match l with
  | [] => exact Nat.le_refl _
  | o :: os =>
    rw [listDepth, heightL]
    have := depth_le_height o
    have := listDepth_le_heightL os
    omega
end

mutual
theorem height_assembled (o : BerObject) (ha : Assembled o) : height o = depth o := by
  match o with
  | .mk h (.sequence l) =>
    rw [height, depth, contentDepth, heightC,
      heightL_assembled l fun x hx o' hn => ha o' (.seq _ l x hx hn)]
  | .mk h (.set l) =>
    rw [height, depth, contentDepth, heightC,
      heightL_assembled l fun x hx o' hn => ha o' (.set _ l x hx hn)]
  | .mk h (.optionalSome x) => exact absurd rfl ((ha _ .self).1 x)
  | .mk h (.tagged k t x) => exact absurd rfl ((ha _ .self).2 k t x)
  | .mk h (.boolean _) | .mk h (.integer _) | .mk h (.bitString _ _) | .mk h (.octetString _)
  | .mk h .null | .mk h (.enum _) | .mk h (.oid _) | .mk h (.relativeOid _) | .mk h (.str _ _)
  | .mk h (.utcTime _) | .mk h (.generalizedTime _) | .mk h (.bmpString _)
  | .mk h (.universalString _) | .mk h .optionalNone | .mk h .endOfContent | .mk h (.unknown _) => rfl
theorem heightL_assembled (l : List BerObject) (ha : ∀ o ∈ l, Assembled o) : heightL l = listDepth l := by
  match l with
  | [] => rfl
  | o :: os =>
    rw [heightL, listDepth, height_assembled o (ha o (by simp)),
      heightL_assembled os fun x hx => ha x (by simp [hx])]
end

mutual
theorem visitObjN_snd {σ : Type} (v : Visitor σ) (o : BerObject) (d : Nat) (s : σ) :
    (visitObjN v o d s).2 = depth o := by
  match o with
  | .mk h c =>
    rw [visitObjN, depth]
    match c with
    | .sequence l => rw [visitContentN, contentDepth]; dsimp only; rw [visitListN_snd v l]
    | .set l => rw [visitContentN, contentDepth]; dsimp only; rw [visitListN_snd v l]
    | .boolean _ | .integer _ | .bitString _ _ | .octetString _ | .null | .enum _ | .oid _
    | .relativeOid _ | .str _ _ | .utcTime _ | .generalizedTime _ | .bmpString _
    | .universalString _ | .optionalNone | .optionalSome _ | .tagged _ _ _ | .endOfContent
    | .unknown _ => rfl
theorem visitListN_snd {σ : Type} (v : Visitor σ) (l : List BerObject) (d : Nat) (s : σ) :
    (visitListN v l d s).2 = listDepth l := by
  match l with
  | [] => rfl
  | o :: os =>
    rw [visitListN, listDepth]
    dsimp only
    rw [visitObjN_snd v o, visitListN_snd v os]
end

/-- C112: a traversal nests as many calls as the object is deep. -/
theorem C112_visit {σ : Type} (v : Visitor σ) (o : BerObject) (d : Nat) (s : σ) :
    (visitObjN v o d s).2 = depth o := visitObjN_snd v o d s

mutual
theorem fmtObjN_snd (P : PrintDeps) (p : PrettyBer) (o : BerObject) :
    (fmtObjN P p o).2 ≤ height o ∧ (p.isRecursive → depth o ≤ (fmtObjN P p o).2) := by
  match o with
  | .mk h c =>
    rw [fmtObjN, height, depth]
    match c with
    | .sequence l =>
      have := fmtListN_snd P p l
      rw [fmtContentN, contentDepth, heightC]
      dsimp only
      split
      · exact ⟨by dsimp only; omega, fun hr => by have := this.2 hr; dsimp only; omega⟩
      · rename_i hr; exact ⟨by simp, fun h => absurd h hr⟩
    | .set l =>
      have := fmtListN_snd P p l
      rw [fmtContentN, contentDepth, heightC]
      dsimp only
      split
      · exact ⟨by dsimp only; omega, fun hr => by have := this.2 hr; dsimp only; omega⟩
      · rename_i hr; exact ⟨by simp, fun h => absurd h hr⟩
    | .tagged _ _ o =>
      have := fmtObjN_snd P (p.nextIndent o) o
      rw [fmtContentN, contentDepth, heightC] <;> simp
      exact this.1
    | .boolean _ | .integer _ | .bitString _ _ | .octetString _ | .null | .enum _ | .oid _
    | .relativeOid _ | .str _ _ | .utcTime _ | .generalizedTime _ | .bmpString _
    | .universalString _ | .optionalNone | .optionalSome _ | .endOfContent
    | .unknown _ => rw [fmtContentN, contentDepth] <;> simp
theorem fmtListN_snd (P : PrintDeps) (p : PrettyBer) (l : List BerObject) :
    (fmtListN P p l).2 ≤ heightL l ∧ (p.isRecursive → listDepth l ≤ (fmtListN P p l).2) := by
  match l with
  | [] => exact ⟨Nat.le_refl _, fun _ => Nat.le_refl _⟩
  | o :: os =>
    have h1 := fmtObjN_snd P (p.nextIndent o) o
    have h2 := fmtListN_snd P p os
    have h3 : (p.nextIndent o).isRecursive = p.isRecursive := rfl
    rw [h3] at h1
    rw [fmtListN, heightL, listDepth]
    dsimp only
    exact ⟨by omega, fun hr => by have := h1.2 hr; have := h2.2 hr; omega⟩
end

mutual
theorem encodeContentN_snd (D : Deps) (c : Content) :
    (encodeContentN D c).2 ≤ 2 * heightC c + 1 := by
  match c with
  | .sequence l => rw [encodeContentN, heightC, Deep.snd_call]; have := encodeListN_snd D l; omega
  | .set l => rw [encodeContentN, heightC, Deep.snd_call]; have := encodeListN_snd D l; omega
  | .optionalSome (.mk h c) =>
    rw [encodeContentN, heightC, Deep.snd_call, encodeInnerContentN, height]
    have := encodeContentN_snd D c
    omega
  | .tagged _ _ o => rw [encodeContentN, heightC, Deep.snd_call]; have := encodeObjectN_snd D o; omega
  | .boolean _ | .integer _ | .bitString _ _ | .octetString _ | .null | .enum _ | .oid _
  | .relativeOid _ | .str _ _ | .utcTime _ | .generalizedTime _ | .bmpString _
  | .universalString _ | .optionalNone | .endOfContent | .unknown _ => rw [encodeContentN] <;> simp
theorem encodeObjectN_snd (D : Deps) (o : BerObject) : (encodeObjectN D o).2 ≤ 2 * height o := by
  match o with
  | .mk h c =>
    rw [encodeObjectN, height, Deep.snd_call]
    have h1 := encodeContentN_snd D c
    have := Deep.bind_le (g := fun v => .flat (encodeHeader { h with length := .definite v.length }
      >>? fun vh => .ok (vh ++ v))) h1 fun _ _ => Nat.zero_le _
    omega
theorem encodeListN_snd (D : Deps) (l : List BerObject) : (encodeListN D l).2 ≤ 2 * heightL l := by
  match l with
  | [] => exact Nat.le_refl _
  | o :: os =>
    rw [encodeListN, heightL]
    have h1 := encodeObjectN_snd D o
    have h2 := encodeListN_snd D os
    refine Deep.bind_le (by omega) fun _ _ => Deep.bind_le (by omega) fun _ _ => Nat.zero_le _
end

mutual
theorem encodeContentN_exact (D : Deps) (c : Content) (v : Bytes)
    (h : (encodeContentN D c).1 = .ok v) : 2 * contentDepth c ≤ (encodeContentN D c).2 + 1 := by
  match c with
  | .sequence l =>
    rw [encodeContentN] at h ⊢
    rw [contentDepth, Deep.snd_call]
    have := encodeListN_exact D l v h
    omega
  | .set l =>
    rw [encodeContentN] at h ⊢
    rw [contentDepth, Deep.snd_call]
    have := encodeListN_exact D l v h
    omega
  | .boolean _ | .integer _ | .bitString _ _ | .octetString _ | .null | .enum _ | .oid _
  | .relativeOid _ | .str _ _ | .utcTime _ | .generalizedTime _ | .bmpString _
  | .universalString _ | .optionalNone | .optionalSome _ | .tagged _ _ _ | .endOfContent | .unknown _ =>
    rw [encodeContentN, contentDepth] <;> simp
theorem encodeObjectN_exact (D : Deps) (o : BerObject) (v : Bytes)
    (h : (encodeObjectN D o).1 = .ok v) : 2 * depth o ≤ (encodeObjectN D o).2 := by
  match o with
  | .mk hd c =>
    rw [encodeObjectN] at h ⊢
    rw [depth, Deep.snd_call]
    obtain ⟨v', h1, h2, h3⟩ := Deep.bind_ok h
    have := encodeContentN_exact D c v' h1
    rw [h3, Deep.snd_flat]
    omega
theorem encodeListN_exact (D : Deps) (l : List BerObject) (v : Bytes)
    (h : (encodeListN D l).1 = .ok v) : 2 * listDepth l ≤ (encodeListN D l).2 := by
  match l with
  | [] => exact Nat.le_refl _
  | o :: os =>
    rw [encodeListN] at h ⊢
    obtain ⟨a, h1, h2, h3⟩ := Deep.bind_ok h
    obtain ⟨b, h4, h5, h6⟩ := Deep.bind_ok h2
    have := encodeObjectN_exact D o a h1
    have := encodeListN_exact D os b h4
    rw [h3, h6, listDepth, Deep.snd_flat]
    omega
end

/-- C112: serialization and printing never nest more calls than the object is high: two for each level
when it is written, one when it is printed. -/
theorem C112_objects (D : Deps) (P : PrintDeps) (p : PrettyBer) (o : BerObject) :
    (encodeObjectN D o).2 ≤ 2 * height o ∧ (fmtObjN P p o).2 ≤ height o :=
  ⟨encodeObjectN_snd D o, (fmtObjN_snd P p o).1⟩

/-- C112: for objects without `Optional` and `Tagged` the numbers are exact: `2 * depth` if the object
can be written, `depth` if it is printed recursively. -/
theorem C112_objects_exact (D : Deps) (P : PrintDeps) (p : PrettyBer) (o : BerObject) (ha : Assembled o) :
    (∀ v, toVec D o = .ok v → (encodeObjectN D o).2 = 2 * depth o) ∧
    (p.isRecursive → (fmtObjN P p o).2 = depth o) := by
  have h1 := height_assembled o ha
  refine ⟨fun v hv => ?_, fun hr => ?_⟩
  · have h2 := encodeObjectN_snd D o
    have h3 := encodeObjectN_exact D o v (by rw [encodeObjectN_fst]; exact hv)
    omega
  · have h2 := fmtObjN_snd P p o
    have h3 := h2.2 hr
    omega

/-! ### Exact numbers for all objects -/

namespace Spec

/-- From an object to one inside it, with the calls that the serializer opens on the way: two, but only
one into an `Optional`, whose header is not written. -/
inductive EncodeStep : BerObject → BerObject → Nat → Prop
  | sequence (h l x) : x ∈ l → EncodeStep (.mk h (.sequence l)) x 2
  | set (h l x) : x ∈ l → EncodeStep (.mk h (.set l)) x 2
  | tagged (h k t x) : EncodeStep (.mk h (.tagged k t x)) x 2
  | optional (h x) : EncodeStep (.mk h (.optionalSome x)) x 1

/-- The same for the printer: `Tagged` always, SEQUENCE and SET with the flag `Recursive`. -/
inductive PrintStep (recursive : Bool) : BerObject → BerObject → Nat → Prop
  | sequence (h l x) : recursive = true → x ∈ l → PrintStep recursive (.mk h (.sequence l)) x 1
  | set (h l x) : recursive = true → x ∈ l → PrintStep recursive (.mk h (.set l)) x 1
  | tagged (h k t x) : PrintStep recursive (.mk h (.tagged k t x)) x 1

/-- A chain of steps downwards from an object, with the sum of the numbers. -/
inductive Descent (step : BerObject → BerObject → Nat → Prop) : BerObject → Nat → Prop
  | stop (o) : Descent step o 0
  | down (o o' k n) : step o o' k → Descent step o' n → Descent step o (n + k)

end Spec

mutual
theorem encodeContentN_chain (D : Deps) (h : Header) (c : Content) :
    (∃ n, Descent EncodeStep (.mk h c) n ∧ (encodeContentN D c).2 ≤ n + 1) ∧
    ∀ v, (encodeContentN D c).1 = .ok v → ∀ n, Descent EncodeStep (.mk h c) n → n + 1 ≤ (encodeContentN D c).2 := by
  match c with
  | .sequence l =>
    obtain ⟨h1, h2⟩ := encodeListN_chain D l
    rw [encodeContentN, Deep.snd_call, Deep.fst_call]
    refine ⟨?_, fun v hv n hc => ?_⟩
    · rcases h1 with h1 | ⟨x, hx, n, h3, h4⟩
      · exact ⟨0, .stop _, by omega⟩
      · exact ⟨n + 2, .down _ _ _ _ (.sequence _ _ _ hx) h3, by omega⟩
    · cases hc with
      | stop => omega
      | down _ o' k m hs hc =>
        cases hs with
        | sequence _ _ _ hx => have := h2 v hv o' hx m hc; omega
  | .set l =>
    obtain ⟨h1, h2⟩ := encodeListN_chain D l
    rw [encodeContentN, Deep.snd_call, Deep.fst_call]
    refine ⟨?_, fun v hv n hc => ?_⟩
    · rcases h1 with h1 | ⟨x, hx, n, h3, h4⟩
      · exact ⟨0, .stop _, by omega⟩
      · exact ⟨n + 2, .down _ _ _ _ (.set _ _ _ hx) h3, by omega⟩
    · cases hc with
      | stop => omega
      | down _ o' k m hs hc =>
        cases hs with
        | set _ _ _ hx => have := h2 v hv o' hx m hc; omega
  | .optionalSome (.mk h' c') =>
    obtain ⟨⟨n, h1, h2⟩, h3⟩ := encodeContentN_chain D h' c'
    rw [encodeContentN, Deep.snd_call, Deep.fst_call, encodeInnerContentN]
    refine ⟨⟨n + 1, .down _ _ _ _ (.optional _ _) h1, by omega⟩, fun v hv n hc => ?_⟩
    cases hc with
    | stop => omega
    | down _ o' k m hs hc =>
      cases hs with
      | optional => have := h3 v hv m hc; omega
  | .tagged k t x =>
    obtain ⟨⟨n, h1, h2⟩, h3⟩ := encodeObjectN_chain D x
    rw [encodeContentN, Deep.snd_call, Deep.fst_call]
    refine ⟨⟨n + 2, .down _ _ _ _ (.tagged _ _ _ _) h1, by omega⟩, fun v hv n hc => ?_⟩
    cases hc with
    | stop => omega
    | down _ o' k m hs hc =>
      cases hs with
      | tagged => have := h3 v hv m hc; omega
  | .boolean _ | .integer _ | .bitString _ _ | .octetString _ | .null | .enum _ | .oid _
  | .relativeOid _ | .str _ _ | .utcTime _ | .generalizedTime _ | .bmpString _
  | .universalString _ | .optionalNone | .endOfContent | .unknown _ =>
    refine ⟨⟨0, .stop _, by rw [encodeContentN] <;> simp⟩, fun v hv n hc => ?_⟩
    cases hc with
    | stop => rw [encodeContentN] <;> simp
    | down _ o' k m hs hc => cases hs
theorem encodeObjectN_chain (D : Deps) (o : BerObject) :
    (∃ n, Descent EncodeStep o n ∧ (encodeObjectN D o).2 ≤ n + 2) ∧
    ∀ v, (encodeObjectN D o).1 = .ok v → ∀ n, Descent EncodeStep o n → n + 2 ≤ (encodeObjectN D o).2 := by
  match o with
  | .mk h c =>
    obtain ⟨⟨n, h1, h2⟩, h3⟩ := encodeContentN_chain D h c
    rw [encodeObjectN, Deep.snd_call, Deep.fst_call]
    refine ⟨⟨n, h1, Nat.succ_le_succ (Deep.bind_le h2 fun _ _ => Nat.zero_le _)⟩, fun v hv m hc => ?_⟩
    obtain ⟨v', h4, h5, h6⟩ := Deep.bind_ok hv
    rw [h6, Deep.snd_flat]
    have := h3 v' h4 m hc
    omega
theorem encodeListN_chain (D : Deps) (l : List BerObject) :
    ((encodeListN D l).2 = 0 ∨ ∃ x ∈ l, ∃ n, Descent EncodeStep x n ∧ (encodeListN D l).2 ≤ n + 2) ∧
    ∀ v, (encodeListN D l).1 = .ok v → ∀ x ∈ l, ∀ n, Descent EncodeStep x n → n + 2 ≤ (encodeListN D l).2 := by
  match l with
  | [] => exact ⟨.inl rfl, fun v _ x hx => by cases hx⟩
  | o :: os =>
    obtain ⟨⟨n, h1, h2⟩, h3⟩ := encodeObjectN_chain D o
    obtain ⟨h4, h5⟩ := encodeListN_chain D os
    rw [encodeListN]
    constructor
    · right
      have up : ∀ m, (encodeObjectN D o).2 ≤ m → (encodeListN D os).2 ≤ m →
          ((encodeObjectN D o).bind fun a => (encodeListN D os).bind fun b => .flat (.ok (a ++ b))).2 ≤ m :=
        fun m ha hb => Deep.bind_le ha fun _ _ => Deep.bind_le hb fun _ _ => Nat.zero_le _
      rcases h4 with h4 | ⟨x, hx, m, h6, h7⟩
      · exact ⟨o, by simp, n, h1, up _ h2 (by omega)⟩
      · by_cases hnm : m ≤ n
        · exact ⟨o, by simp, n, h1, up _ h2 (by omega)⟩
        · exact ⟨x, by simp [hx], m, h6, up _ (by omega) h7⟩
    · intro v hv x hx m hc
      obtain ⟨a, b1, b2, b3⟩ := Deep.bind_ok hv
      obtain ⟨b, b4, b5, b6⟩ := Deep.bind_ok b2
      rw [b3, b6, Deep.snd_flat]
      rcases List.mem_cons.1 hx with rfl | hx
      · have := h3 a b1 m hc; omega
      · have := h5 b b4 x hx m hc; omega
end

mutual
theorem fmtObjN_chain (P : PrintDeps) (p : PrettyBer) (o : BerObject) :
    (∃ n, Descent (PrintStep p.isRecursive) o n ∧ (fmtObjN P p o).2 = n + 1) ∧
    ∀ n, Descent (PrintStep p.isRecursive) o n → n + 1 ≤ (fmtObjN P p o).2 := by
  match o with
  | .mk h (.sequence l) =>
    obtain ⟨h1, h2⟩ := fmtListN_chain P p l
    rw [fmtObjN, fmtContentN]
    dsimp only
    split
    · rename_i hr
      refine ⟨?_, fun n hc => ?_⟩
      · rcases h1 with h1 | ⟨x, hx, n, h3, h4⟩
        · exact ⟨0, .stop _, by dsimp only; omega⟩
        · exact ⟨n + 1, .down _ _ _ _ (.sequence _ _ _ hr hx) h3, by dsimp only; omega⟩
      · cases hc with
        | stop => omega
        | down _ o' k m hs hc =>
          cases hs with
          | sequence _ _ _ _ hx => have := h2 o' hx m hc; dsimp only; omega
    · rename_i hr
      refine ⟨⟨0, .stop _, rfl⟩, fun n hc => ?_⟩
      cases hc with
      | stop => omega
      | down _ o' k m hs hc => cases hs with | sequence _ _ _ h _ => exact absurd h hr
  | .mk h (.set l) =>
    obtain ⟨h1, h2⟩ := fmtListN_chain P p l
    rw [fmtObjN, fmtContentN]
    dsimp only
    split
    · rename_i hr
      refine ⟨?_, fun n hc => ?_⟩
      · rcases h1 with h1 | ⟨x, hx, n, h3, h4⟩
        · exact ⟨0, .stop _, by dsimp only; omega⟩
        · exact ⟨n + 1, .down _ _ _ _ (.set _ _ _ hr hx) h3, by dsimp only; omega⟩
      · cases hc with
        | stop => omega
        | down _ o' k m hs hc =>
          cases hs with
          | set _ _ _ _ hx => have := h2 o' hx m hc; dsimp only; omega
    · rename_i hr
      refine ⟨⟨0, .stop _, rfl⟩, fun n hc => ?_⟩
      cases hc with
      | stop => omega
      | down _ o' k m hs hc => cases hs with | set _ _ _ h _ => exact absurd h hr
  | .mk h (.tagged k t x) =>
    obtain ⟨⟨n, h1, h2⟩, h3⟩ := fmtObjN_chain P (p.nextIndent x) x
    have e : (p.nextIndent x).isRecursive = p.isRecursive := rfl
    rw [e] at h1 h3
    rw [fmtObjN, fmtContentN]
    dsimp only
    refine ⟨⟨n + 1, .down _ _ _ _ (.tagged _ _ _ _) h1, by omega⟩, fun m hc => ?_⟩
    cases hc with
    | stop => omega
    | down _ o' k m hs hc => cases hs with | tagged => have := h3 m hc; omega
  | .mk h (.boolean _) | .mk h (.integer _) | .mk h (.bitString _ _) | .mk h (.octetString _)
  | .mk h .null | .mk h (.enum _) | .mk h (.oid _) | .mk h (.relativeOid _) | .mk h (.str _ _)
  | .mk h (.utcTime _) | .mk h (.generalizedTime _) | .mk h (.bmpString _) | .mk h (.optionalSome _)
  | .mk h (.universalString _) | .mk h .optionalNone | .mk h .endOfContent | .mk h (.unknown _) =>
    refine ⟨⟨0, .stop _, rfl⟩, fun n hc => ?_⟩
    cases hc with
    | stop => rw [fmtObjN]; simp
    | down _ o' k m hs hc => cases hs
theorem fmtListN_chain (P : PrintDeps) (p : PrettyBer) (l : List BerObject) :
    ((fmtListN P p l).2 = 0 ∨
      ∃ x ∈ l, ∃ n, Descent (PrintStep p.isRecursive) x n ∧ (fmtListN P p l).2 = n + 1) ∧
    ∀ x ∈ l, ∀ n, Descent (PrintStep p.isRecursive) x n → n + 1 ≤ (fmtListN P p l).2 := by
  match l with
  | [] => exact ⟨.inl rfl, fun x hx => by cases hx⟩
  | o :: os =>
    obtain ⟨⟨n, h1, h2⟩, h3⟩ := fmtObjN_chain P (p.nextIndent o) o
    obtain ⟨h4, h5⟩ := fmtListN_chain P p os
    have e : (p.nextIndent o).isRecursive = p.isRecursive := rfl
    rw [e] at h1 h3
    rw [fmtListN]
    dsimp only
    constructor
    · right
      rcases h4 with h4 | ⟨x, hx, m, h6, h7⟩
      · exact ⟨o, by simp, n, h1, by omega⟩
      · by_cases hnm : m ≤ n
        · exact ⟨o, by simp, n, h1, by omega⟩
        · exact ⟨x, by simp [hx], m, h6, by omega⟩
    · intro x hx m hc
      rcases List.mem_cons.1 hx with rfl | hx
      · have := h3 m hc; omega
      · have := h5 x hx m hc; omega
end

/-- C112: the exact number for any object that can be written: the longest chain of objects inside each
other, with two calls for each but one for the content of an `Optional`.  (An object that cannot be
written makes no more.) -/
theorem C112_encode_exact (D : Deps) (o : BerObject) :
    (∃ n, Descent EncodeStep o n ∧ (encodeObjectN D o).2 ≤ n + 2) ∧
    ∀ v, toVec D o = .ok v → ∀ n, Descent EncodeStep o n → n + 2 ≤ (encodeObjectN D o).2 := by
  have := encodeObjectN_chain D o
  rw [encodeObjectN_fst] at this
  exact this

/-- C112: the exact number for printing any object: the longest chain of printed objects. -/
theorem C112_print_exact (P : PrintDeps) (p : PrettyBer) (o : BerObject) :
    (∃ n, Descent (PrintStep p.isRecursive) o n ∧ (fmtObjN P p o).2 = n + 1) ∧
    ∀ n, Descent (PrintStep p.isRecursive) o n → n + 1 ≤ (fmtObjN P p o).2 := fmtObjN_chain P p o

/-- A chain of two steps. -/
example := (C112_print_exact Tests.P0 (Tests.printed.asPretty 0 2)
  (.fromSeq [.fromSeq [.fromObj .null]])).2 2 (.down _ (.fromSeq [.fromObj .null]) _ _ (PrintStep.sequence _ _ _ rfl (List.mem_singleton.2 rfl))
    (.down _ (.fromObj .null) _ _ (PrintStep.sequence _ _ _ rfl (List.mem_singleton.2 rfl)) (.stop _)))

theorem assembled_parse_ber {D : Deps} {d : Nat} {i rem : Bytes} {o : BerObject}
    (h : parseBerRecursive D d i = .ok (rem, o)) : Assembled o := by
  intro o' hn
  have := C27_parse_ber D d i rem o o' h hn
  refine ⟨fun x hx => ?_, fun k t x hx => ?_⟩ <;> (rw [hx] at this; exact this)

theorem assembled_parse_der {D : Deps} (hT : TimesKnown D) {d : Nat} {i rem : Bytes} {o : BerObject}
    (h : parseDerRecursive D (d + 1) i = .ok (rem, o)) : Assembled o := by
  intro o' hn
  have := C27_parse_der D hT d i rem o o' h hn
  refine ⟨fun x hx => ?_, fun k t x hx => ?_⟩ <;> (rw [hx] at this; exact this)

/-! ## Integer accessors -/

theorem removeZeroesN_snd (n : Nat) (b : UInt8) (rest : Bytes) (hb : b ≠ 0 ∨ rest = []) :
    (removeZeroesN (List.replicate n 0 ++ b :: rest)).2 = n + 1 := by
  induction n with
  | zero =>
    rw [List.replicate_zero, List.nil_append]
    cases rest with
    | nil => rfl
    | cons c rest =>
      rw [removeZeroesN, if_neg (by rcases hb with h | h; exact h; cases h)]
  | succ n ih =>
    rw [List.replicate_succ, List.cons_append]
    cases hq : List.replicate n 0 ++ b :: rest with
    | nil => simp at hq
    | cons c r =>
      rw [hq] at ih
      rw [removeZeroesN, if_pos rfl]
      dsimp only
      omega

theorem isHighestBitSet_zeroes (n : Nat) (b : UInt8) (rest : Bytes) :
    isHighestBitSet (List.replicate n 0 ++ b :: rest) = decide (n = 0 ∧ 128 ≤ b.toNat) := by
  cases n with
  | zero => simp [isHighestBitSet]
  | succ n => simp [List.replicate_succ, isHighestBitSet]

/-- C112: on an INTEGER whose contents begin with `n` zero octets (not counting the last octet) the
accessors nest `n + 1` calls, one for each of them: there is no recursion limit here.  (The unsigned ones
refuse a set sign bit before the first call.) -/
theorem C112_integer (n : Nat) (b : UInt8) (rest : Bytes) (hb : b ≠ 0 ∨ rest = []) (k : Nat) :
    ((Content.integer (List.replicate n 0 ++ b :: rest)).asSignedIntN k).2 = n + 1 ∧
    (Content.integer (List.replicate n 0 ++ b :: rest)).asU64N.2 =
      (if n = 0 ∧ 128 ≤ b.toNat then 0 else n + 1) ∧
    (Content.integer (List.replicate n 0 ++ b :: rest)).asU32N.2 =
      (if n = 0 ∧ 128 ≤ b.toNat then 0 else n + 1) := by
  have h1 := removeZeroesN_snd n b rest hb
  have hu : ∀ k, (decodeArrayUintN k (List.replicate n 0 ++ b :: rest)).2 =
      if n = 0 ∧ 128 ≤ b.toNat then 0 else n + 1 := by
    intro k
    unfold decodeArrayUintN
    rw [isHighestBitSet_zeroes]
    by_cases hh : n = 0 ∧ 128 ≤ b.toNat
    · rw [if_pos (by simpa using hh), if_pos hh]; rfl
    · rw [if_neg (by simpa using hh), if_neg hh]; exact h1
  refine ⟨?_, hu 8, hu 4⟩
  rw [Content.asSignedIntN]
  split
  · exact h1
  · rename_i hh
    rw [isHighestBitSet_zeroes] at hh
    rw [Deep.snd_map, hu, if_neg (by simpa using hh)]

example := C112_integer 3 0x80 [0x01] (.inl (by decide)) 8

/-- C112: on other contents there is no recursive call. -/
theorem C112_not_integer (c : Content) (k : Nat) (h : ∀ bs, c ≠ .integer bs) :
    (c.asSignedIntN k).2 = 0 ∧ c.asU64N.2 = 0 ∧ c.asU32N.2 = 0 := by
  cases c with
  | integer bs => exact absurd rfl (h bs)
  | _ => exact ⟨rfl, rfl, rfl⟩

example := C112_not_integer (.enum 5) 4 (fun _ h => by cases h)

/-- Every octet string is some zero octets followed by one that is not or is the last. -/
theorem zeroes_split : ∀ bs : Bytes, bs = [] ∨ ∃ n b rest, bs = List.replicate n 0 ++ b :: rest ∧
    (b ≠ 0 ∨ rest = [])
  | [] => .inl rfl
  | b :: bs => by
    right
    by_cases hb : b = 0
    · rcases zeroes_split bs with rfl | ⟨n, b', rest, rfl, h⟩
      · exact ⟨0, b, [], rfl, .inr rfl⟩
      · exact ⟨n + 1, b', rest, by rw [hb, List.replicate_succ, List.cons_append], h⟩
    · exact ⟨0, b, bs, rfl, .inl hb⟩

/-- C112: without superfluous leading octets (X.690 8.3.2: the first nine bits are not all zero) it is at
most two calls. -/
theorem C112_integer_minimal (bs : Bytes) (k : Nat)
    (hm : (bitsOf bs).take 9 ≠ List.replicate 9 false) :
    ((Content.integer bs).asSignedIntN k).2 ≤ 2 ∧ (Content.integer bs).asU64N.2 ≤ 2 ∧
    (Content.integer bs).asU32N.2 ≤ 2 := by
  rcases zeroes_split bs with rfl | ⟨n, b, rest, rfl, h⟩
  · exact ⟨by simp [Content.asSignedIntN, isHighestBitSet, decodeArrayUintN, removeZeroesN], by
      simp [Content.asU64N, isHighestBitSet, decodeArrayUintN, removeZeroesN], by
      simp [Content.asU32N, isHighestBitSet, decodeArrayUintN, removeZeroesN]⟩
  · have hn : n ≤ 1 := by
      match n with
      | 0 | 1 => omega
      | n + 2 =>
        exfalso
        apply hm
        rw [List.replicate_succ, List.replicate_succ]
        rfl
    obtain ⟨h1, h2, h3⟩ := C112_integer n b rest h k
    rw [h1, h2, h3]
    refine ⟨by omega, ?_, ?_⟩ <;> (split <;> omega)

example := C112_integer_minimal [0x00, 0x80, 0x01] 8 (by decide)

/-! ## The claim -/

/-- C112: no input makes the parser, and no object returned by it makes an accessor, the visitor, the
printer or the serializer, nest more than 101 calls. -/
def C112Statement (D : Deps) : Prop :=
  ∀ (P : PrintDeps) (p : PrettyBer) (i : Bytes), (parseBerRecursiveN D 50 i).2 ≤ 101 ∧
    ∀ rem o, parseBer D i = .ok (rem, o) → ∀ o', Node o' o →
      (∀ σ (v : Visitor σ) d s, (visitObjN v o' d s).2 ≤ 101) ∧ (fmtObjN P p o').2 ≤ 101 ∧
      (encodeObjectN D o').2 ≤ 101 ∧ (o'.content.asSignedIntN 8).2 ≤ 101 ∧
      (o'.content.asSignedIntN 4).2 ≤ 101 ∧ o'.content.asU64N.2 ≤ 101 ∧ o'.content.asU32N.2 ≤ 101

theorem depth_node {o o' : BerObject} (h : Node o' o) : depth o' ≤ depth o := by
  have hl : ∀ (l : List BerObject) (x : BerObject), x ∈ l → depth x ≤ listDepth l := by
    intro l
    induction l with
    | nil => intro x hx; cases hx
    | cons y l ih =>
      intro x hx
      rw [listDepth]
      rcases List.mem_cons.1 hx with rfl | hx
      · omega
      · have := ih x hx; omega
  induction h with
  | self => exact Nat.le_refl _
  | seq h l x hx _ ih => rw [depth, contentDepth]; have := hl l x hx; omega
  | set h l x hx _ ih => rw [depth, contentDepth]; have := hl l x hx; omega

theorem node_trans {o o' o'' : BerObject} (h' : Node o'' o') (h : Node o' o) : Node o'' o := by
  induction h with
  | self => exact h'
  | seq h l x hx _ ih => exact .seq h l x hx ih
  | set h l x hx _ ih => exact .set h l x hx ih

/-- C112: the claim holds but for the accessors on INTEGERs with superfluous leading zero octets.
Missing: those (they nest one call for each octet, `C112_counterexample`). -/
theorem C112_bounded_partial (D : Deps) (P : PrintDeps) (p : PrettyBer) (i : Bytes) :
    (parseBerRecursiveN D 50 i).2 ≤ 101 ∧
    ∀ rem o, parseBer D i = .ok (rem, o) → ∀ o', Node o' o →
      (∀ σ (v : Visitor σ) d s, (visitObjN v o' d s).2 ≤ 50) ∧ (fmtObjN P p o').2 ≤ 50 ∧
      (encodeObjectN D o').2 ≤ 100 ∧
      ((∀ bs, o'.content = .integer bs → (bitsOf bs).take 9 ≠ List.replicate 9 false) →
        (o'.content.asSignedIntN 8).2 ≤ 2 ∧ (o'.content.asSignedIntN 4).2 ≤ 2 ∧
        o'.content.asU64N.2 ≤ 2 ∧ o'.content.asU32N.2 ≤ 2) := by
  refine ⟨(C112_parsers D 50 0 i).1, fun rem o h o' hn => ?_⟩
  have h1 := (C13_depth_exact D 50 i rem o h).1
  have h2 := depth_node hn
  have h3 : Assembled o' := fun x hx => assembled_parse_ber h x (node_trans hx hn)
  have h4 := height_assembled o' h3
  obtain ⟨h5, h6⟩ := C112_objects D P p o'
  refine ⟨fun σ v d s => by rw [C112_visit]; omega, by omega, by omega, fun hm => ?_⟩
  by_cases hi : ∃ bs, o'.content = .integer bs
  · obtain ⟨bs, hi⟩ := hi
    rw [hi]
    obtain ⟨a1, a2, a3⟩ := C112_integer_minimal bs 8 (hm bs hi)
    obtain ⟨b1, -, -⟩ := C112_integer_minimal bs 4 (hm bs hi)
    exact ⟨a1, b1, a2, a3⟩
  · have hi : ∀ bs, o'.content ≠ .integer bs := fun bs h => hi ⟨bs, h⟩
    obtain ⟨a1, a2, a3⟩ := C112_not_integer _ 8 hi
    obtain ⟨b1, -, -⟩ := C112_not_integer _ 4 hi
    omega

example := (C112_bounded_partial Tests.D0 Tests.P0 (Tests.printed.asPretty 0 2) [0x30, 0x03, 0x02, 0x01, 0x05]).2 [] _ rfl
  (.mk ⟨.universal, false, 2, .definite 1, some [2]⟩ (.integer [5])) (.seq _ _ _ (List.mem_singleton.2 rfl) .self)

/-- The BER encoding of zero as an INTEGER of `n + 1` octets. -/
def longZero (n : Nat) : Bytes :=
  0x02 :: (encodeLength (.definite (n + 1)) ++ List.replicate (n + 1) 0)

theorem longZero_header (t : UInt8) (ht : t.toNat % 32 ≠ 31) (n : Nat) (hn : n < 2 ^ 64) :
    BerHeader (t :: encodeLength (.definite n))
      ⟨classOf t, constructedBit t, t.toNat % 32, .definite n, some [t]⟩ := by
  refine ⟨⟨[t], _, t.toNat % 32, rfl, .low t ht, C44_length_octets n hn, ?_, by simp, rfl⟩,
    fun m hm => by simp only [Length.definite.injEq] at hm; omega, fun hm => by simp at hm⟩
  have h1 : t.toNat % 32 < 32 := Nat.mod_lt _ (by decide)
  have h2 : (32 : Nat) ≤ 2 ^ 32 := by decide
  exact (Nat.mod_eq_of_lt (Nat.lt_of_lt_of_le h1 h2)).symm

theorem longZero_framed (n : Nat) (hn : n + 1 < 2 ^ 64) :
    Framed 50 (longZero n) ⟨.universal, false, 2, .definite (n + 1), some [2]⟩ (List.replicate (n + 1) 0) := by
  have := Framed.definite (n := 50) _ (List.replicate (n + 1) 0) _ (longZero_header 0x02 (by decide) (n + 1) hn)
    (by simp)
  exact this

/-- C112 fails: `parse_ber` accepts an INTEGER of `n + 1` zero octets, for every `n` that a length can
announce, and each accessor then nests `n + 1` calls (and returns zero). -/
theorem C112_counterexample (D : Deps) (n : Nat) (hn : n + 1 < 2 ^ 64) :
    ∃ o, parseBer D (longZero n) = .ok ([], o) ∧
      (o.content.asSignedIntN 8) = (.ok 0, n + 1) ∧ (o.content.asSignedIntN 4) = (.ok 0, n + 1) ∧
      o.content.asU64N = (.ok 0, n + 1) ∧ o.content.asU32N = (.ok 0, n + 1) := by
  refine ⟨.mk ⟨.universal, false, 2, .definite (n + 1), some [2]⟩ (.integer (List.replicate (n + 1) 0)),
    (C61_parse_ber D _ _ _).2 ⟨_, _, (List.append_nil _).symm, longZero_framed n hn,
      .leaf 49 _ _ _ ⟨rfl, rfl, rfl⟩⟩, ?_⟩
  have e : List.replicate (n + 1) (0 : UInt8) = List.replicate n 0 ++ 0 :: [] := by
    rw [List.replicate_succ']
  have hr : ∀ n, removeZeroes (List.replicate n 0 ++ [0]) = [0] := by
    intro n
    induction n with
    | zero => rfl
    | succ n ih =>
      cases n with
      | zero => rfl
      | succ n => exact ih
  have hs : isHighestBitSet (List.replicate n 0 ++ [0]) = false := by
    rw [isHighestBitSet_zeroes]; simp
  dsimp only [BerObject.content]
  rw [e]
  obtain ⟨a1, a2, a3⟩ := C112_integer n 0 [] (.inr rfl) 8
  obtain ⟨b1, -, -⟩ := C112_integer n 0 [] (.inr rfl) 4
  rw [if_neg (by simp)] at a2 a3
  have key := fun k => C112_same_results_objects D (σ := Unit)
    ⟨fun _ => [], fun _ _ => [], fun _ => [], fun _ => [], fun _ => [], fun _ => []⟩
    ⟨fun _ _ _ => (), fun _ _ _ _ => ()⟩
    (.mk ⟨.universal, false, 2, .definite (n + 1), some [2]⟩ (.integer (List.replicate n 0 ++ [0])))
    ⟨.fromObj .null, 0, 0, []⟩ 0 k ()
  obtain ⟨k1, k2, k3, -⟩ := key 8
  obtain ⟨k4, -⟩ := key 4
  simp only [BerObject.content] at k1 k2 k3 k4
  refine ⟨Prod.ext (k1.trans ?_) a1, Prod.ext (k4.trans ?_) b1, Prod.ext (k2.trans ?_) a2,
    Prod.ext (k3.trans ?_) a3⟩
  · simp only [Content.asSignedInt, hs, decodeArrayUint, hr]
    show Outcome.ok (asSigned (8 * 8) 0) = .ok 0
    rw [asSigned, if_pos (by decide)]; rfl
  · simp only [Content.asSignedInt, hs, decodeArrayUint, hr]
    show Outcome.ok (asSigned (8 * 4) 0) = .ok 0
    rw [asSigned, if_pos (by decide)]; rfl
  · simp only [Content.asU64, hs, decodeArrayUint, hr]; rfl
  · simp only [Content.asU32, hs, decodeArrayUint, hr]; rfl

/-- C112 as stated is false. -/
theorem C112_not_statement (D : Deps) : ¬ C112Statement D := by
  intro h
  obtain ⟨o, h1, h2, -⟩ := C112_counterexample D 101 (by decide)
  have := (h ⟨fun _ => [], fun _ _ => [], fun _ => [], fun _ => [], fun _ => [], fun _ => []⟩
    ⟨.fromObj .null, 0, 0, []⟩ (longZero 101)).2 [] o h1 o .self
  rw [h2] at this
  exact absurd this.2.2.2.1 (by decide)

/-- C112: `parse_der` refuses such an INTEGER at the top. -/
theorem C112_der_top (D : Deps) (hT : TimesKnown D) (d : Nat) (i rem bs : Bytes) (h : Header)
    (hp : parseDerRecursive D (d + 1) i = .ok (rem, .mk h (.integer bs))) (k : Nat) :
    ((Content.integer bs).asSignedIntN k).2 ≤ 2 ∧ (Content.integer bs).asU64N.2 ≤ 2 ∧
    (Content.integer bs).asU32N.2 ≤ 2 := by
  have ha := C27_parse_der D hT d i rem _ _ hp .self
  obtain ⟨hb, c, -, -, -, -, h1⟩ := (C63_parse_der_exact D hT d i rem _).1 hp
  simp only [BerObject.header, BerObject.content] at h1 ha
  rcases h1 with ⟨-, h1⟩ | ⟨h1, h2, h3⟩
  · cases h1
  · cases h3 with
    | leaf _ _ _ _ hL =>
      obtain ⟨-, a2, rfl⟩ := hL
      exact C112_integer_minimal bs k (h2.int a2).2

/-- C112: but not inside a SEQUENCE: `parse_der` accepts the INTEGER there. -/
theorem C112_der_counterexample (D : Deps) (hT : TimesKnown D) (n : Nat) (hn : n < 2 ^ 31) :
    ∃ h o, parseDer D (0x30 :: (encodeLength (.definite (longZero n).length) ++ longZero n)) =
        .ok ([], .mk h (.sequence [o])) ∧
      (o.content.asSignedIntN 8).2 = n + 1 ∧ (o.content.asSignedIntN 4).2 = n + 1 ∧
      o.content.asU64N.2 = n + 1 ∧ o.content.asU32N.2 = n + 1 := by
  have hlen : (longZero n).length ≤ n + 12 := by
    have h1 : (skipZeroes (toBeBytes 8 (n + 1))).length ≤ 8 :=
      Nat.le_trans (List.dropWhile_sublist _).length_le (by simp [toBeBytes])
    simp only [longZero, List.length_cons, List.length_append, List.length_replicate, encodeLength]
    split
    · simp; omega
    · simp; omega
  generalize hL : (longZero n).length = L at hlen
  have hn1 : n + 1 < 2 ^ 64 := by omega
  refine ⟨⟨.universal, true, 16, .definite L, some [0x30]⟩,
    .mk ⟨.universal, false, 2, .definite (n + 1), some [2]⟩ (.integer (List.replicate (n + 1) 0)), ?_, ?_⟩
  · refine (C63_parse_der_exact D hT 49 _ _ _).2 ⟨0x30 :: encodeLength (.definite L), longZero n, by simp,
      ⟨longZero_header 0x30 (by decide) L (by omega), by simp⟩, by simp [hL], by omega,
      .inr ⟨rfl, ⟨by simp, by simp, by simp, by simp⟩, ?_⟩⟩
    have := Denotes.sequence (D := D) 49 (Header.new .universal true 16 (.definite L))
      [⟨longZero n, ⟨.universal, false, 2, .definite (n + 1), some [2]⟩, List.replicate (n + 1) 0,
        .integer (List.replicate (n + 1) 0)⟩] rfl rfl rfl
      (by intro it hit; cases List.mem_singleton.1 hit; exact longZero_framed n hn1)
      (by intro it hit; cases List.mem_singleton.1 hit; exact .leaf 48 _ _ _ ⟨rfl, rfl, rfl⟩)
    simpa using this
  · have e : List.replicate (n + 1) (0 : UInt8) = List.replicate n 0 ++ 0 :: [] := by
      rw [List.replicate_succ']
    obtain ⟨a1, a2, a3⟩ := C112_integer n 0 [] (.inr rfl) 8
    obtain ⟨b1, -, -⟩ := C112_integer n 0 [] (.inr rfl) 4
    rw [if_neg (by simp)] at a2 a3
    dsimp only [BerObject.content]
    rw [e]
    exact ⟨a1, b1, a2, a3⟩

/-! ## Examples -/

/-- A SEQUENCE with a SET in it: two levels of definite length. -/
example : ∃ o, parseBerRecursive Tests.D0 50 [0x30, 0x02, 0x31, 0x00] = .ok ([], o) ∧ depth o = 2 ∧
    (parseBerRecursiveN Tests.D0 50 [0x30, 0x02, 0x31, 0x00]).2 = 2 := ⟨_, rfl, rfl, rfl⟩
/-- One level of indefinite length more than the object is deep. -/
example : ∃ o, parseBerRecursive Tests.D0 50 [0x30, 0x80, 0x05, 0x00, 0x00, 0x00] = .ok ([], o) ∧
    depth o = 2 ∧ (parseBerRecursiveN Tests.D0 50 [0x24, 0x80, 0x24, 0x80, 0, 0, 0, 0]).2 = 3 :=
  ⟨_, rfl, rfl, rfl⟩
/-- `C112_encode_exact`: a `Tagged` in an `Optional`, with its longest chain: 3 + 2 calls. -/
example (D : Deps) :
    let h : Header := ⟨.universal, false, 5, .definite 0, none⟩
    let o : BerObject := .mk h (.optionalSome (.mk h (.tagged .application 1 (.mk h .null))))
    Descent EncodeStep o (0 + 2 + 1) ∧ (encodeObjectN D o).2 = 5 :=
  ⟨.down _ _ _ _ (.optional _ _) (.down _ _ _ _ (.tagged _ _ _ _) (.stop _)), rfl⟩
/-- `C112_parse_ber_limited` applies: a limit of 1 for the object of depth 2. -/
example : (parseBerRecursiveN Tests.D0 1 [0x30, 0x02, 0x31, 0x00]).2 = 2 := rfl
/-- Five zero octets before the last octet: six calls. -/
example : (Content.integer [0, 0, 0, 0, 0, 7]).asU32N = (.ok 7, 6) := rfl
/-- `C112_der_top` applies. -/
example : ∃ o, parseDerRecursive Tests.D0 50 [0x02, 0x02, 0x00, 0xff] = .ok ([], o) ∧
    o.content = .integer [0x00, 0xff] ∧ o.content.asU64N.2 = 2 := ⟨_, rfl, rfl, rfl⟩
/-- `C112_objects_exact` applies: an object that can be written. -/
example : (encodeObjectN Tests.D0 (.fromSeq [.fromSeq [.fromObj .null]])).2 = 6 ∧
    depth (.fromSeq [.fromSeq [.fromObj .null]]) = 3 := ⟨rfl, rfl⟩

end Verif
