import Verif.Cost
import Verif.Props.Linear
import Verif.Props.Total
/-!
# Number of header reads: C78
-/
namespace Verif
open Outcome Spec

/-! ## The counted functions give the same results -/

section
variable {ε ε' α β : Type}

@[simp] theorem Tick.fst_bind (x : Tick ε α) (f : α → Tick ε β) :
    (x.bind f).1 = (x.1 >>? fun a => (f a).1) := by
  unfold Tick.bind
  cases x.1 <;> rfl
@[simp] theorem Tick.fst_free (x : Outcome ε α) : (Tick.free x).1 = x := rfl
@[simp] theorem Tick.fst_read (x : Outcome ε α) : (Tick.read x).1 = x := rfl
@[simp] theorem Tick.fst_mapErr (f : ε → ε') (x : Tick ε α) : (x.mapErr f).1 = x.1.mapErr f := rfl
@[simp] theorem Tick.fst_map (f : α → β) (x : Tick ε α) : (x.map f).1 = x.1.map f := rfl
end

theorem skipLoopT_fst (skip : Header → Bytes → Tick (NomErr BerError) (Bytes × Bool)) (fuel : Nat)
    (i : Bytes) : (skipLoopT skip fuel i).1 = skipLoop (fun h i => (skip h i).1) fuel i := by
  induction fuel generalizing i with
  | zero => rfl
  | succ fuel ih =>
    simp only [skipLoopT, skipLoop, Tick.fst_bind, Tick.fst_read]
    congr 1; funext r2; congr 1; funext r3
    split <;> simp [ih]

theorem skipContentT_fst (d : Nat) : ∀ h i, (skipContentT d h i).1 = skipContent d h i := by
  induction d with
  | zero => intro h i; rfl
  | succ d ih =>
    intro h i
    rw [skipContentT, skipContent]
    cases h.length with
    | definite l => rfl
    | indefinite =>
      dsimp only
      split
      · rw [skipLoopT_fst]
        have : (fun h i => (skipContentT d h i).1) = skipContent d := by funext h i; exact ih h i
        rw [this]
      · rfl

theorem getObjectContentT_fst (d : Nat) (h : Header) (i : Bytes) :
    (getObjectContentT d h i).1 = getObjectContent d h i := by
  simp only [getObjectContentT, getObjectContent, Tick.fst_bind, skipContentT_fst, Tick.fst_free]

theorem anyFromBerT_fst (i : Bytes) : (anyFromBerT i).1 = anyFromBer i := by
  simp only [anyFromBerT, anyFromBer, Tick.fst_bind, Tick.fst_read, getObjectContentT_fst,
    Tick.fst_free]

theorem collectItemsT_fst (conv : Any → Tick BerError BerObject) (fuel : Nat) (data : Bytes) :
    (collectItemsT conv fuel data).1 = collectItems (fun a => (conv a).1) fuel data := by
  induction fuel generalizing data with
  | zero => rfl
  | succ fuel ih =>
    cases data with
    | nil => rfl
    | cons b data =>
      simp only [collectItemsT, collectItems, Tick.fst_bind, Tick.fst_mapErr, anyFromBerT_fst, ih,
        Tick.fst_free]

theorem universalContentT_fst (D : Deps) (conv : Any → Tick BerError BerObject) (a : Any) :
    (universalContentT D conv a).1 = universalContent D (fun b => (conv b).1) a := by
  unfold universalContentT
  split
  · rename_i h
    simp only [Tick.fst_bind, Tick.fst_free, Tick.fst_map, collectItemsT_fst, universalContent, h]
  · rename_i h
    simp only [Tick.fst_bind, Tick.fst_free, Tick.fst_map, collectItemsT_fst, universalContent, h]
  · rfl

theorem objectFromAnyT_fst (D : Deps) (d : Nat) : ∀ a, (objectFromAnyT D d a).1 = objectFromAny D d a := by
  induction d with
  | zero => intro a; rfl
  | succ d ih =>
    intro a
    rw [objectFromAnyT, objectFromAny]
    split
    · rfl
    · rw [Tick.fst_map, universalContentT_fst]
      have : (fun b => (objectFromAnyT D d b).1) = objectFromAny D d := by funext b; exact ih b
      rw [this]

theorem berReadElementContentAsT_fst (D : Deps) (i : Bytes) (tag : Nat) (length : Length)
    (constructed : Bool) (d : Nat) :
    (berReadElementContentAsT D i tag length constructed d).1 =
      berReadElementContentAs D i tag length constructed d := by
  unfold berReadElementContentAsT berReadElementContentAs
  cases length with
  | definite l =>
    dsimp only
    split
    · rfl
    · split
      · rfl
      · simp only [Tick.fst_bind, getObjectContentT_fst, Tick.fst_mapErr, objectFromAnyT_fst,
          Tick.fst_free]
        rfl
  | indefinite =>
    simp only [Tick.fst_bind, getObjectContentT_fst, Tick.fst_mapErr, objectFromAnyT_fst,
      Tick.fst_free]
    rfl

theorem derReadElementContentAsT_fst (D : Deps) (i : Bytes) (tag : Nat) (length : Length)
    (constructed : Bool) (d : Nat) :
    (derReadElementContentAsT D i tag length constructed d).1 =
      derReadElementContentAs D i tag length constructed d := by
  unfold derReadElementContentAsT derReadElementContentAs
  simp only [Tick.fst_bind, Tick.fst_free]
  congr 1; funext l
  split
  · rfl
  · split
    · rfl
    · simp only [Tick.fst_bind, Tick.fst_free, berReadElementContentAsT_fst]

theorem derUnknownT_fst (i : Bytes) (h : Header) (d : Nat) :
    (derUnknownT i h d).1 = derUnknown i h d := by
  simp only [derUnknownT, derUnknown, Tick.fst_bind, getObjectContentT_fst, Tick.fst_free]

theorem derReadElementContentRecursiveT_fst (D : Deps) (i : Bytes) (h : Header) (d : Nat) :
    (derReadElementContentRecursiveT D i h d).1 = derReadElementContentRecursive D i h d := by
  unfold derReadElementContentRecursiveT derReadElementContentRecursive
  split
  · exact derUnknownT_fst i h d
  · dsimp only
    rw [derReadElementContentAsT_fst]
    split <;> simp_all [derUnknownT_fst]

/-- C78: counting does not change the results. -/
theorem C78_same_results (D : Deps) (d t : Nat) (i : Bytes) :
    (parseBerRecursiveT D d i).1 = parseBerRecursive D d i ∧
    (parseBerWithTagT D t i).1 = parseBerWithTag D t i ∧
    (parseDerRecursiveT D d i).1 = parseDerRecursive D d i ∧
    (parseDerWithTagT D t i).1 = parseDerWithTag D t i := by
  refine ⟨?_, ?_, ?_, ?_⟩
  · unfold parseBerRecursiveT parseBerRecursive parseBerAnyR
    split
    · rfl
    · simp only [Tick.fst_bind, anyFromBerT_fst, Tick.fst_mapErr, objectFromAnyT_fst, Tick.fst_free]
      rfl
  · simp only [parseBerWithTagT, parseBerWithTag, Tick.fst_bind, Tick.fst_read, Tick.fst_free,
      berReadElementContentAsT_fst]
  · simp only [parseDerRecursiveT, parseDerRecursive, Tick.fst_bind, Tick.fst_read]
    congr 1; funext r
    cases r.2.length with
    | definite l =>
      dsimp only
      split
      · rfl
      · exact derReadElementContentRecursiveT_fst ..
    | indefinite => exact derReadElementContentRecursiveT_fst ..
  · simp only [parseDerWithTagT, parseDerWithTag, Tick.fst_bind, Tick.fst_read, Tick.fst_free,
      derReadElementContentAsT_fst]

/-! ## Bounds -/

/-- `2 * count` is at most `n`, and on success `f a` is left over; on failure one header read more is
allowed. -/
def Within {ε α : Type} (x : Tick ε α) (n : Nat) (f : α → Nat) : Prop :=
  (∀ a, x.1 = .ok a → 2 * x.2 + f a ≤ n) ∧ 2 * x.2 ≤ n + 2

section
variable {ε ε' α β : Type}

theorem Within.bind {x : Tick ε α} {n : Nat} {f : α → Nat} {g : α → Tick ε β} {h : β → Nat}
    (hx : Within x n f) (hg : ∀ a, x.1 = .ok a → Within (g a) (f a) h) : Within (x.bind g) n h := by
  obtain ⟨h1, h2⟩ := hx
  unfold Tick.bind
  match hq : x.1 with
  | .ok a =>
    have h3 := h1 a hq
    obtain ⟨h4, h5⟩ := hg a hq
    exact ⟨fun b hb => by have := h4 b hb; dsimp only; omega, by dsimp only; omega⟩
  | .err e => exact ⟨by simp, h2⟩
  | .panic => exact ⟨by simp, h2⟩
  | .diverge => exact ⟨by simp, h2⟩

theorem Within.frame {x : Tick ε α} {n n' : Nat} (m : Nat) {f f' : α → Nat} (hx : Within x n f)
    (hf : ∀ a, x.1 = .ok a → f' a ≤ f a + m) (hn : n + m ≤ n') : Within x n' f' :=
  ⟨fun a ha => by have := hx.1 a ha; have := hf a ha; omega, by have := hx.2; omega⟩

theorem Within.free {x : Outcome ε α} {n : Nat} {f : α → Nat} (h : ∀ a, x = .ok a → f a ≤ n) :
    Within (Tick.free x) n f :=
  ⟨fun a ha => by have := h a ha; simp [Tick.free]; exact this, by simp [Tick.free]⟩

theorem Within.mapErr {x : Tick ε α} {n : Nat} {f : α → Nat} (g : ε → ε') (h : Within x n f) :
    Within (x.mapErr g) n f := by
  refine ⟨fun a ha => h.1 a ?_, h.2⟩
  have ha : x.1.mapErr g = .ok a := ha
  cases hq : x.1 <;> rw [hq] at ha <;> simp at ha
  rw [ha]

theorem Within.map {x : Tick ε α} {n : Nat} {f : β → Nat} (g : α → β)
    (h : Within x n fun a => f (g a)) : Within (x.map g) n f := by
  refine ⟨fun b hb => ?_, h.2⟩
  have hb : x.1.map g = .ok b := hb
  match hq : x.1 with
  | .ok a => rw [hq] at hb; cases hb; exact h.1 a hq
  | .err _ | .panic | .diverge => rw [hq] at hb; cases hb
end

theorem within_headerFromBer (i : Bytes) :
    Within (Tick.read (headerFromBer i)) i.length fun r => r.1.length :=
  ⟨fun r hr => by have := headerFromBer_pos (rem := r.1) (h := r.2) hr; simp only [Tick.read]; omega,
    by simp only [Tick.read]; omega⟩

theorem within_headerFromDer (i : Bytes) :
    Within (Tick.read (headerFromDer i)) i.length fun r => r.1.length :=
  ⟨fun r hr => by
    obtain ⟨hb, h1, h2⟩ := headerFromDer_iff.1 (show headerFromDer i = .ok (r.1, r.2) from hr)
    have := berHeader_nonempty h2.toBerHeader
    have := congrArg List.length h1
    rw [List.length_append] at this
    simp only [Tick.read]; omega,
    by simp only [Tick.read]; omega⟩

theorem within_skipContent (d : Nat) :
    ∀ h i, Within (skipContentT d h i) i.length fun r => r.1.length := by
  induction d with
  | zero => intro h i; exact .free (by simp)
  | succ d ih =>
    intro h i
    have loop : ∀ fuel i, Within (skipLoopT (skipContentT d) fuel i) i.length fun r => r.1.length := by
      intro fuel
      induction fuel with
      | zero => intro i; exact .free (by simp)
      | succ fuel ihf =>
        intro i
        refine (within_headerFromBer i).bind fun r2 _ => (ih r2.2 r2.1).bind fun r3 _ => ?_
        split
        · exact .free fun a ha => by cases ha; exact Nat.le_refl _
        · exact ihf _
    rw [skipContentT]
    cases h.length with
    | definite l =>
      refine .free fun a ha => ?_
      split at ha
      · cases ha; exact Nat.le_refl _
      · obtain ⟨r, h1, h2⟩ := bind_eq_ok.1 ha
        cases h2
        unfold takeStreaming at h1
        split at h1
        · cases h1
        · cases h1; simp
    | indefinite =>
      dsimp only
      split
      · exact loop _ _
      · exact .free (by simp)

theorem within_getObjectContent (d : Nat) (h : Header) (i : Bytes) :
    Within (getObjectContentT d h i) i.length fun r => r.1.length := by
  refine (within_skipContent d h i).bind fun r _ => .free fun a ha => ?_
  have key : a.1 = i.drop (i.length - r.1.length) := by
    split at ha
    · split at ha
      · cases ha
      · cases ha; rfl
    · cases ha; rfl
  rw [key, List.length_drop]
  omega

theorem within_anyFromBer (i : Bytes) : Within (anyFromBerT i) i.length fun r => r.1.length :=
  (within_headerFromBer i).bind fun r _ => (within_getObjectContent _ r.2 r.1).bind fun _ _ =>
    .free fun a ha => by cases ha; exact Nat.le_refl _

theorem anyFromBer_data {i rem : Bytes} {a : Any} (h : anyFromBer i = .ok (rem, a)) :
    a.data.length + rem.length ≤ i.length := by
  obtain ⟨e, rfl, hF⟩ := anyFromBer_framed.1 h
  have := framed_length hF
  rw [List.length_append]
  omega

theorem within_collect {conv : Any → Tick BerError BerObject} {k : Nat}
    (hc : ∀ a, Within (conv a) (k * a.data.length) fun _ => 0) :
    ∀ fuel data, Within (collectItemsT conv fuel data) ((k + 1) * data.length) fun _ => 0 := by
  intro fuel
  induction fuel with
  | zero => intro data; exact .free (by simp)
  | succ fuel ih =>
    intro data
    cases data with
    | nil => exact .free (by simp)
    | cons b data =>
      rw [collectItemsT]
      generalize b :: data = i
      refine Within.bind (f := fun r => k * r.2.data.length + (k + 1) * r.1.length)
        ((within_anyFromBer i).mapErr errOfNom |>.frame (k * i.length) ?_ ?_) fun r _ => ?_
      · intro r hr
        have hr : (anyFromBerT i).1 = .ok r := by
          have hr : (anyFromBerT i).1.mapErr errOfNom = .ok r := hr
          cases hq : (anyFromBerT i).1 <;> rw [hq] at hr <;> simp at hr
          rw [hr]
        rw [anyFromBerT_fst] at hr
        have h1 := anyFromBer_data (rem := r.1) (a := r.2) hr
        have h2 := Nat.mul_le_mul_left k h1
        rw [Nat.mul_add] at h2
        rw [Nat.add_mul, Nat.one_mul]
        omega
      · rw [Nat.add_mul, Nat.one_mul]; omega
      · refine Within.bind (f := fun _ => (k + 1) * r.1.length)
          ((hc r.2).frame ((k + 1) * r.1.length) (by intro _ _; omega) (by omega)) fun o _ => ?_
        refine (ih r.1).bind fun os _ => .free (by simp)

theorem within_objectFromAny (D : Deps) (d : Nat) :
    ∀ a, Within (objectFromAnyT D d a) (d * a.data.length) fun _ => 0 := by
  induction d with
  | zero => intro a; exact .free (by simp)
  | succ d ih =>
    intro a
    rw [objectFromAnyT]
    split
    · exact .free (by simp)
    · refine .map _ ?_
      unfold universalContentT
      split
      · exact Within.bind (f := fun _ => (d + 1) * a.data.length) (.free (by simp)) fun _ _ =>
          .map _ (within_collect ih _ _)
      · exact Within.bind (f := fun _ => (d + 1) * a.data.length) (.free (by simp)) fun _ _ =>
          .map _ (within_collect ih _ _)
      · exact .free (by simp)

theorem getObjectContent_data {d : Nat} {h : Header} {i rem c : Bytes}
    (e : getObjectContent d h i = .ok (rem, c)) : c.length + rem.length ≤ i.length := by
  unfold getObjectContent at e
  obtain ⟨r, -, e⟩ := bind_eq_ok.1 e
  dsimp only at e
  split at e
  · split at e
    · cases e
    · cases e; simp only [List.length_take, List.length_drop]; omega
  · cases e; simp only [List.length_take, List.length_drop]; omega

theorem within_berReadElementContentAs (D : Deps) (i : Bytes) (tag : Nat) (length : Length)
    (constructed : Bool) (d : Nat) :
    Within (berReadElementContentAsT D i tag length constructed d) ((d + 1) * i.length)
      fun r => (d + 1) * r.1.length := by
  have go : ∀ header : Header, Within ((getObjectContentT d header i).bind fun r =>
      ((objectFromAnyT D d { header, data := r.2 }).mapErr NomErr.error).bind fun o =>
        .free (.ok (r.1, o.content))) ((d + 1) * i.length) fun r => (d + 1) * r.1.length := by
    intro header
    refine Within.bind (f := fun r => d * r.2.length + (d + 1) * r.1.length)
      ((within_getObjectContent d header i).frame (d * i.length) ?_ ?_) fun r _ => ?_
    · intro r hr
      rw [getObjectContentT_fst] at hr
      have h1 := getObjectContent_data (rem := r.1) (c := r.2) hr
      have h2 := Nat.mul_le_mul_left d h1
      rw [Nat.mul_add] at h2
      rw [Nat.add_mul, Nat.one_mul]
      omega
    · rw [Nat.add_mul, Nat.one_mul]; omega
    · exact Within.bind (f := fun _ => (d + 1) * r.1.length)
        ((within_objectFromAny D d ⟨header, r.2⟩).mapErr _ |>.frame ((d + 1) * r.1.length)
          (by intro _ _; omega) (by dsimp only; omega))
        fun o _ => .free fun a ha => by cases ha; exact Nat.le_refl _
  unfold berReadElementContentAsT
  cases length with
  | definite l =>
    dsimp only
    split
    · exact .free (by simp)
    · split
      · exact .free (by simp)
      · exact go _
  | indefinite => exact go _

/-! ## C78 -/

/-- C78: `parse_ber` with recursion limit `d` reads at most `(d + 1) / 2` headers for each octet
consumed, and on failure at most one more for the whole input: the time is linear in the length of the
input, whatever the nesting. -/
theorem C78_parse_ber (D : Deps) (d : Nat) (i : Bytes) :
    2 * (parseBerRecursiveT D d i).2 ≤ (d + 1) * i.length + 2 ∧
    ∀ rem o, parseBerRecursive D d i = .ok (rem, o) →
      2 * (parseBerRecursiveT D d i).2 ≤ (d + 1) * (i.length - rem.length) := by
  have key : Within (parseBerRecursiveT D d i) ((d + 1) * i.length) fun r => (d + 1) * r.1.length := by
    unfold parseBerRecursiveT
    split
    · exact .free (by simp)
    · refine Within.bind (f := fun r => d * r.2.data.length + (d + 1) * r.1.length)
        ((within_anyFromBer i).frame (d * i.length) ?_ ?_) fun r _ => ?_
      · intro r hr
        rw [anyFromBerT_fst] at hr
        have h1 := anyFromBer_data (rem := r.1) (a := r.2) hr
        have h2 := Nat.mul_le_mul_left d h1
        rw [Nat.mul_add] at h2
        rw [Nat.add_mul, Nat.one_mul]
        omega
      · rw [Nat.add_mul, Nat.one_mul]; omega
      · exact Within.bind (f := fun _ => (d + 1) * r.1.length)
          ((within_objectFromAny D d r.2).mapErr _ |>.frame ((d + 1) * r.1.length)
            (by intro _ _; omega) (by omega))
          fun o _ => .free fun a ha => by cases ha; exact Nat.le_refl _
  refine ⟨key.2, fun rem o h => ?_⟩
  have h1 := key.1 (rem, o) (by rw [(C78_same_results D d 0 i).1]; exact h)
  rw [Nat.mul_sub]
  dsimp only at h1
  omega

example := (C78_parse_ber Tests.D0 50 [0x30, 0x80, 0x05, 0x00, 0x00, 0x00, 9]).2 [9] _ rfl

/-- C78 for `parse_ber_with_tag`, i.e. all typed BER parsers. -/
theorem C78_parse_ber_with_tag (D : Deps) (t : Nat) (i : Bytes) :
    2 * (parseBerWithTagT D t i).2 ≤ 51 * i.length + 2 := by
  have key : Within (parseBerWithTagT D t i) (51 * i.length) fun _ => 0 := by
    refine Within.bind (f := fun r => 51 * r.1.length)
      ((within_headerFromBer i).frame (50 * i.length) ?_ (by omega)) fun r _ => ?_
    · intro r hr
      have := headerFromBer_pos (rem := r.1) (h := r.2) hr
      omega
    · refine Within.bind (f := fun _ => 51 * r.1.length) (.free (by simp)) fun _ _ => ?_
      refine Within.bind (f := fun _ => 0)
        ((within_berReadElementContentAs D r.1 _ _ _ _).frame 0 (by simp) (by simp [maxRecursion]))
        fun s _ => .free (by simp)
  exact key.2

theorem derReadElementContentAs_count (D : Deps) (i : Bytes) (tag : Nat) (length : Length)
    (constructed : Bool) (d : Nat) :
    Within (derReadElementContentAsT D i tag length constructed d) ((d + 1) * i.length)
      fun _ => 0 := by
  refine Within.bind (f := fun _ => (d + 1) * i.length) (.free (by simp)) fun l _ => ?_
  split
  · exact .free (by simp)
  · split
    · exact .free (by simp)
    · exact Within.bind (f := fun _ => (d + 1) * i.length) (.free (by simp)) fun _ _ =>
        (within_berReadElementContentAs D i tag length constructed d).frame 0 (by simp) (by omega)

/-- C78 for `parse_der` with any recursion limit. -/
theorem C78_parse_der (D : Deps) (d : Nat) (i : Bytes) :
    2 * (parseDerRecursiveT D d i).2 ≤ (d + 1) * i.length + 2 := by
  have unk : ∀ i h, h.length ≠ .indefinite → (derUnknownT i h d).2 = 0 := by
    intro i h hl
    have : (skipContentT d h i).2 = 0 := by
      cases d with
      | zero => rfl
      | succ d =>
        rw [skipContentT]
        cases hq : h.length with
        | indefinite => exact absurd hq hl
        | definite l => rfl
    have h2 : (getObjectContentT d h i).2 = 0 := by
      unfold getObjectContentT Tick.bind
      split <;> simp [this, Tick.free]
    unfold derUnknownT Tick.bind
    split <;> simp [h2, Tick.free]
  have content : ∀ i h, h.length ≠ .indefinite →
      2 * (derReadElementContentRecursiveT D i h d).2 ≤ (d + 1) * i.length + 2 := by
    intro i h hl
    unfold derReadElementContentRecursiveT
    have h1 := (derReadElementContentAs_count D i h.tag h.length h.constructed d).2
    split
    · rw [unk i h hl]; omega
    · dsimp only
      split <;> dsimp only <;> first | exact h1 | (rw [unk i h hl]; exact h1)
  have hd := within_headerFromDer i
  unfold parseDerRecursiveT
  show 2 * ((Tick.read (headerFromDer i)).bind _).2 ≤ _
  unfold Tick.bind
  have hmul : ∀ a b, a + 2 ≤ b → (d + 1) * a + 2 ≤ (d + 1) * b := by
    intro a b hab
    have := Nat.mul_le_mul_left (d + 1) hab
    rw [Nat.mul_add] at this
    omega
  match hq : (Tick.read (headerFromDer i)).1 with
  | .ok r =>
    have h1 := hd.1 r hq
    simp only [Tick.read] at h1
    have h2 := hmul r.1.length i.length (by omega)
    have hl : r.2.length ≠ .indefinite := by
      obtain ⟨hb, -, h⟩ := headerFromDer_iff.1 (show headerFromDer i = .ok (r.1, r.2) from hq)
      exact h.definite
    dsimp only [Tick.read]
    cases hq2 : r.2.length with
    | indefinite => exact absurd hq2 hl
    | definite l =>
      dsimp only
      split
      · simp only [Tick.free]; omega
      · have := content r.1 r.2 hl
        omega
  | .err _ | .panic | .diverge => simp only [Tick.read]; omega

/-- C78 for `parse_der_with_tag`, i.e. all typed DER parsers. -/
theorem C78_parse_der_with_tag (D : Deps) (t : Nat) (i : Bytes) :
    2 * (parseDerWithTagT D t i).2 ≤ 51 * i.length + 2 := by
  have key : Within (parseDerWithTagT D t i) (51 * i.length) fun _ => 0 := by
    refine Within.bind (f := fun r => 51 * r.1.length)
      ((within_headerFromDer i).frame (50 * i.length) ?_ (by omega)) fun r hr => ?_
    · intro r hr
      have := (within_headerFromDer i).1 r hr
      dsimp only at this
      omega
    · refine Within.bind (f := fun _ => 51 * r.1.length) (.free (by simp)) fun _ _ => ?_
      refine Within.bind (f := fun _ => 0)
        ((derReadElementContentAs_count D r.1 _ _ _ _).frame 0 (by simp) (by simp [maxRecursion]))
        fun s _ => .free (by simp)
  exact key.2

namespace Tests

/-- `k` NULL elements. -/
def nulls : Nat → Bytes
  | 0 => []
  | k + 1 => 0x05 :: 0x00 :: nulls k

/-- `j` nested SEQUENCEs of indefinite length around `k` NULL elements. -/
def nestedIndef (k : Nat) : Nat → Bytes
  | 0 => nulls k
  | j + 1 => 0x30 :: 0x80 :: (nestedIndef k j ++ [0x00, 0x00])

end Tests
open Tests

theorem nestedIndef_length (k j : Nat) : (nestedIndef k j).length = 2 * k + 4 * j := by
  have h : (nulls k).length = 2 * k := by
    induction k with
    | zero => rfl
    | succ k ih => simp [nulls, ih]; omega
  induction j with
  | zero => simp [nestedIndef, h]
  | succ j ih => simp [nestedIndef, ih]; omega

/-- Header `30 80`. -/
def hdrSeqIndef : Header := ⟨.universal, true, 16, .indefinite, some [0x30]⟩
/-- Header `05 00`. -/
def hdrNull : Header := ⟨.universal, false, 5, .definite 0, some [0x05]⟩
/-- Header `00 00`. -/
def hdrEoc : Header := ⟨.universal, false, 0, .definite 0, some [0x00]⟩

theorem header_seq (t : Bytes) : headerFromBer (0x30 :: 0x80 :: t) = .ok (t, hdrSeqIndef) := rfl
theorem header_null (t : Bytes) : headerFromBer (0x05 :: 0x00 :: t) = .ok (t, hdrNull) := rfl
theorem header_eoc (t : Bytes) : headerFromBer (0x00 :: 0x00 :: t) = .ok (t, hdrEoc) := rfl

theorem skip_null (d : Nat) (t : Bytes) : skipContentT (d + 1) hdrNull t = (.ok (t, false), 0) := by
  simp [skipContentT, hdrNull, Tick.free, takeStreaming, Tag.endOfContent]

theorem skip_eoc (d : Nat) (t : Bytes) : skipContentT (d + 1) hdrEoc t = (.ok (t, true), 0) := by
  simp [skipContentT, hdrEoc, Tick.free, Tag.endOfContent]

theorem skip_seq (d : Nat) (t : Bytes) :
    skipContentT (d + 1) hdrSeqIndef t = skipLoopT (skipContentT d) (t.length + 1) t := rfl

theorem skipLoop_nulls (d : Nat) (t : Bytes) : ∀ k fuel, k < fuel →
    skipLoopT (skipContentT (d + 1)) fuel (nulls k ++ 0x00 :: 0x00 :: t) = (.ok (t, false), k + 1) := by
  intro k
  induction k with
  | zero =>
    intro fuel hf
    obtain ⟨fuel, rfl⟩ : ∃ f, fuel = f + 1 := ⟨fuel - 1, by omega⟩
    simp [skipLoopT, nulls, header_eoc, Tick.read, Tick.bind, skip_eoc, Tick.free]
  | succ k ih =>
    intro fuel hf
    obtain ⟨fuel, rfl⟩ : ∃ f, fuel = f + 1 := ⟨fuel - 1, by omega⟩
    simp [skipLoopT, nulls, header_null, Tick.read, Tick.bind, skip_null, ih fuel (by omega)]
    omega

theorem skipLoop_nested (k d : Nat) : ∀ j fuel t, (nestedIndef k j).length < fuel →
    skipLoopT (skipContentT (d + j + 1)) fuel (nestedIndef k j ++ 0x00 :: 0x00 :: t) =
      (.ok (t, false), k + 1 + 2 * j) := by
  intro j
  induction j with
  | zero =>
    intro fuel t hf
    rw [nestedIndef_length] at hf
    exact skipLoop_nulls d t k fuel (by omega)
  | succ j ih =>
    intro fuel t hf
    rw [nestedIndef_length] at hf
    obtain ⟨fuel, rfl⟩ : ∃ f, fuel = f + 2 := ⟨fuel - 2, by omega⟩
    have h1 : skipContentT (d + (j + 1) + 1) hdrSeqIndef
        (nestedIndef k j ++ [0x00, 0x00] ++ 0x00 :: 0x00 :: t) =
        (.ok (0x00 :: 0x00 :: t, false), k + 1 + 2 * j) := by
      have := ih ((nestedIndef k j ++ [0x00, 0x00] ++ 0x00 :: 0x00 :: t).length + 1)
        (0x00 :: 0x00 :: t) (by simp; omega)
      simpa [skipContentT, hdrSeqIndef] using this
    have h2 : skipLoopT (skipContentT (d + (j + 1) + 1)) (fuel + 1) (0x00 :: 0x00 :: t) =
        (.ok (t, false), 1) := by
      simp [skipLoopT, header_eoc, Tick.read, Tick.bind, skip_eoc, Tick.free]
    rw [skipLoopT, nestedIndef]
    simp only [List.cons_append, header_seq, Tick.read, Tick.bind, h1, h2]
    simp
    omega

theorem anyFromBer_nested (k j : Nat) (hj : j ≤ 48) (t : Bytes) :
    anyFromBerT (nestedIndef k (j + 1) ++ t) =
      (.ok (t, ⟨hdrSeqIndef, nestedIndef k j⟩), k + 2 + 2 * j) := by
  have h1 : skipContentT maxRecursion hdrSeqIndef (nestedIndef k j ++ 0x00 :: 0x00 :: t) =
      (.ok (t, false), k + 1 + 2 * j) := by
    have := skipLoop_nested k (48 - j) j ((nestedIndef k j ++ 0x00 :: 0x00 :: t).length + 1) t
      (by simp; omega)
    have h49 : 48 - j + j + 1 = 49 := by omega
    rw [h49] at this
    rw [← this]
    exact skip_seq 49 _
  have h2 : getObjectContentT maxRecursion hdrSeqIndef (nestedIndef k j ++ 0x00 :: 0x00 :: t) =
      (.ok (t, nestedIndef k j), k + 1 + 2 * j) := by
    unfold getObjectContentT Tick.bind
    rw [h1]
    have hl : (nestedIndef k j ++ 0x00 :: 0x00 :: t).length - t.length =
        (nestedIndef k j).length + 2 := by simp; omega
    have hlen : hdrSeqIndef.length = .indefinite := rfl
    simp only [hl, Tick.free, hlen]
    have ht : (nestedIndef k j ++ 0x00 :: 0x00 :: t).take ((nestedIndef k j).length + 2) =
        nestedIndef k j ++ [0x00, 0x00] := by
      rw [List.take_append, List.take_of_length_le (by omega)]; simp
    have hd : (nestedIndef k j ++ 0x00 :: 0x00 :: t).drop ((nestedIndef k j).length + 2) = t := by
      rw [List.drop_append]; simp
    rw [ht, hd]
    simp
  have h3 : nestedIndef k (j + 1) ++ t = 0x30 :: 0x80 :: (nestedIndef k j ++ 0x00 :: 0x00 :: t) := by
    simp [nestedIndef]
  rw [h3]
  simp only [anyFromBerT, header_seq, Tick.read, Tick.bind, h2, Tick.free]
  simp
  omega

theorem anyFromBer_null (t : Bytes) :
    anyFromBerT (0x05 :: 0x00 :: t) = (.ok (t, ⟨hdrNull, []⟩), 1) := by
  have h2 : getObjectContentT maxRecursion hdrNull t = (.ok (t, []), 0) := by
    unfold getObjectContentT Tick.bind
    rw [show maxRecursion = 49 + 1 from rfl, skip_null]
    have : hdrNull.length ≠ .indefinite := by decide
    simp [Tick.free, this]
  simp only [anyFromBerT, header_null, Tick.read, Tick.bind, h2, Tick.free]

theorem objectFromAny_null (D : Deps) (d : Nat) :
    objectFromAnyT D (d + 1) ⟨hdrNull, []⟩ = (.ok (.mk hdrNull .null), 0) := rfl

theorem collect_nulls (D : Deps) (d : Nat) : ∀ k fuel, k < fuel →
    ∃ l, collectItemsT (objectFromAnyT D (d + 1)) fuel (nulls k) = (.ok l, k) := by
  intro k
  induction k with
  | zero =>
    intro fuel hf
    obtain ⟨fuel, rfl⟩ : ∃ f, fuel = f + 1 := ⟨fuel - 1, by omega⟩
    exact ⟨[], rfl⟩
  | succ k ih =>
    intro fuel hf
    obtain ⟨fuel, rfl⟩ : ∃ f, fuel = f + 1 := ⟨fuel - 1, by omega⟩
    obtain ⟨l, hl⟩ := ih fuel (by omega)
    refine ⟨.mk hdrNull .null :: l, ?_⟩
    rw [nulls, collectItemsT]
    simp only [anyFromBer_null, Tick.mapErr, Tick.bind, mapErr_ok, objectFromAny_null, hl, Tick.free]
    simp
    exact Nat.add_comm 1 k

theorem objectFromAny_seq {D : Deps} {d n : Nat} {x : Bytes} {l : List BerObject}
    (h : collectItemsT (objectFromAnyT D d) (x.length + 1) x = (.ok l, n)) :
    objectFromAnyT D (d + 1) ⟨hdrSeqIndef, x⟩ = (.ok (.mk hdrSeqIndef (.sequence l)), n) := by
  show Tick.map (BerObject.mk hdrSeqIndef) ((Tick.free (.ok ())).bind fun (_ : Unit) =>
    (collectItemsT (objectFromAnyT D d) (x.length + 1) x).map Content.sequence) = _
  rw [h]
  simp [Tick.map, Tick.bind, Tick.free]

theorem objectFromAny_nested (D : Deps) (k : Nat) : ∀ j d, j ≤ 49 → j + 1 ≤ d →
    ∃ o, objectFromAnyT D (d + 1) ⟨hdrSeqIndef, nestedIndef k j⟩ = (.ok o, (j + 1) * (k + j)) := by
  intro j
  induction j with
  | zero =>
    intro d _ hd
    obtain ⟨d, rfl⟩ : ∃ f, d = f + 1 := ⟨d - 1, by omega⟩
    obtain ⟨l, hl⟩ := collect_nulls D d k ((nulls k).length + 1) (by
      have := nestedIndef_length k 0; rw [nestedIndef] at this; omega)
    refine ⟨.mk hdrSeqIndef (.sequence l), ?_⟩
    rw [nestedIndef, objectFromAny_seq hl]
    simp
  | succ j ih =>
    intro d hj hd
    obtain ⟨d, rfl⟩ : ∃ f, d = f + 1 := ⟨d - 1, by omega⟩
    obtain ⟨o, ho⟩ := ih d (by omega) (by omega)
    have h1 := anyFromBer_nested k j (by omega) []
    rw [List.append_nil] at h1
    have hc : ∃ l, collectItemsT (objectFromAnyT D (d + 1)) ((nestedIndef k (j + 1)).length + 1)
        (nestedIndef k (j + 1)) = (.ok l, k + 2 + 2 * j + (j + 1) * (k + j)) := by
      have hpos : (nestedIndef k (j + 1)).length = (nestedIndef k j).length + 3 + 1 := by
        simp [nestedIndef]
      rw [hpos]
      generalize hx : nestedIndef k (j + 1) = x at h1
      have hne : x ≠ [] := by rw [← hx]; simp [nestedIndef]
      cases x with
      | nil => exact absurd rfl hne
      | cons b x =>
        refine ⟨[o], ?_⟩
        rw [collectItemsT]
        simp only [h1, Tick.mapErr, Tick.bind, mapErr_ok, ho]
        simp [collectItemsT, Tick.free]
    obtain ⟨l, hl⟩ := hc
    refine ⟨.mk hdrSeqIndef (.sequence l), ?_⟩
    have hn : k + 2 + 2 * j + (j + 1) * (k + j) = (j + 1 + 1) * (k + (j + 1)) := by
      simp only [Nat.add_mul, Nat.mul_add]; omega
    rw [← hn]
    exact objectFromAny_seq hl

/-- C78: the factor is real.  `j` nested SEQUENCEs of indefinite length around `k` NULLs (an input of
`2 * k + 4 * j` octets) are accepted and cost exactly `(j + 1) * (k + j)` header reads, for every `k` and
every `j` up to the limit of 49: the NULLs are read again at each level. -/
theorem C78_nested_cost (D : Deps) (k j d : Nat) (h1 : 1 ≤ j) (hj : j ≤ 49) (hd : j < d) :
    (nestedIndef k j).length = 2 * k + 4 * j ∧
    (∃ o, parseBerRecursive D d (nestedIndef k j) = .ok ([], o)) ∧
    (parseBerRecursiveT D d (nestedIndef k j)).2 = (j + 1) * (k + j) := by
  refine ⟨nestedIndef_length k j, ?_⟩
  obtain ⟨j, rfl⟩ : ∃ m, j = m + 1 := ⟨j - 1, by omega⟩
  obtain ⟨d, rfl⟩ : ∃ m, d = m + 1 := ⟨d - 1, by omega⟩
  have h2 := anyFromBer_nested k j (by omega) []
  rw [List.append_nil] at h2
  obtain ⟨o, ho⟩ := objectFromAny_nested D k j d (by omega) (by omega)
  have hn : k + 2 + 2 * j + (j + 1) * (k + j) = (j + 1 + 1) * (k + (j + 1)) := by
    simp only [Nat.add_mul, Nat.mul_add]; omega
  have hT : parseBerRecursiveT D (d + 1) (nestedIndef k (j + 1)) =
      (.ok ([], o), (j + 1 + 1) * (k + (j + 1))) := by
    rw [← hn]
    simp [parseBerRecursiveT, h2, Tick.bind, Tick.mapErr, ho, Tick.free]
  refine ⟨⟨o, ?_⟩, by rw [hT]⟩
  rw [← (C78_same_results D (d + 1) 0 _).1, hT]

example : ∃ o, parseBerRecursiveT Tests.D0 50 [0x30, 0x80, 0x30, 0x80, 0x05, 0x00, 0x00, 0x00, 0x00, 0x00] =
    (.ok ([], o), 9) := ⟨_, rfl⟩

end Verif
