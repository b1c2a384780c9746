import Verif.CostOctets
import Verif.Props.CostExact
/-!
# Number of octets looked at: C143
-/
namespace Verif
open Outcome Spec

/-! ## The counted functions give the same results -/

theorem lookHeader_fst (p : Bytes → IRes BerError Header) (i : Bytes) : (lookHeader p i).1 = p i := rfl
theorem lookTwo_fst {ε α : Type} (x : Outcome ε α) : (lookTwo x).1 = x := rfl

theorem skipLoopO_fst (skip : Header → Bytes → Tick (NomErr BerError) (Bytes × Bool)) (fuel : Nat)
    (i : Bytes) : (skipLoopO skip fuel i).1 = skipLoop (fun h i => (skip h i).1) fuel i := by
  induction fuel generalizing i with
  | zero => rfl
  | succ fuel ih =>
    simp only [skipLoopO, skipLoop, Tick.fst_bind, lookHeader_fst]
    congr 1; funext r2; congr 1; funext r3
    split <;> simp [ih]

theorem skipContentO_fst (d : Nat) : ∀ h i, (skipContentO d h i).1 = skipContent d h i := by
  induction d with
  | zero => intro h i; rfl
  | succ d ih =>
    intro h i
    rw [skipContentO, skipContent]
    cases h.length with
    | definite l => rfl
    | indefinite =>
      dsimp only
      split
      · rw [skipLoopO_fst]
        have : (fun h i => (skipContentO d h i).1) = skipContent d := by funext h i; exact ih h i
        rw [this]
      · rfl

theorem getObjectContentO_fst (d : Nat) (h : Header) (i : Bytes) :
    (getObjectContentO d h i).1 = getObjectContent d h i := by
  simp only [getObjectContentO, getObjectContent, Tick.fst_bind, skipContentO_fst, Tick.fst_free]

theorem anyFromBerO_fst (i : Bytes) : (anyFromBerO i).1 = anyFromBer i := by
  simp only [anyFromBerO, anyFromBer, Tick.fst_bind, lookHeader_fst, getObjectContentO_fst,
    Tick.fst_free]

theorem collectItemsO_fst (conv : Any → Tick BerError BerObject) (fuel : Nat) (data : Bytes) :
    (collectItemsO conv fuel data).1 = collectItems (fun a => (conv a).1) fuel data := by
  induction fuel generalizing data with
  | zero => rfl
  | succ fuel ih =>
    cases data with
    | nil => rfl
    | cons b data =>
      simp only [collectItemsO, collectItems, Tick.fst_bind, Tick.fst_mapErr, anyFromBerO_fst, ih,
        Tick.fst_free]

theorem universalContentO_fst (D : Deps) (leaf : Any → Nat) (conv : Any → Tick BerError BerObject) (a : Any) :
    (universalContentO D leaf conv a).1 = universalContent D (fun b => (conv b).1) a := by
  unfold universalContentO
  split
  · rename_i h
    simp only [Tick.fst_bind, Tick.fst_free, Tick.fst_map, collectItemsO_fst, universalContent, h]
  · rename_i h
    simp only [Tick.fst_bind, Tick.fst_free, Tick.fst_map, collectItemsO_fst, universalContent, h]
  · rfl

theorem objectFromAnyO_fst (D : Deps) (leaf : Any → Nat) (d : Nat) :
    ∀ a, (objectFromAnyO D leaf d a).1 = objectFromAny D d a := by
  induction d with
  | zero => intro a; rfl
  | succ d ih =>
    intro a
    rw [objectFromAnyO, objectFromAny]
    split
    · rfl
    · rw [Tick.fst_map, universalContentO_fst]
      have : (fun b => (objectFromAnyO D leaf d b).1) = objectFromAny D d := by funext b; exact ih b
      rw [this]

theorem berReadElementContentAsO_fst (D : Deps) (leaf : Any → Nat) (i : Bytes) (tag : Nat) (length : Length)
    (constructed : Bool) (d : Nat) :
    (berReadElementContentAsO D leaf i tag length constructed d).1 =
      berReadElementContentAs D i tag length constructed d := by
  unfold berReadElementContentAsO berReadElementContentAs
  cases length with
  | definite l =>
    dsimp only
    split
    · rfl
    · split
      · rfl
      · simp only [Tick.fst_bind, getObjectContentO_fst, Tick.fst_mapErr, objectFromAnyO_fst,
          Tick.fst_free]
        rfl
  | indefinite =>
    simp only [Tick.fst_bind, getObjectContentO_fst, Tick.fst_mapErr, objectFromAnyO_fst,
      Tick.fst_free]
    rfl

theorem derReadElementContentAsO_fst (D : Deps) (leaf : Any → Nat) (i : Bytes) (tag : Nat) (length : Length)
    (constructed : Bool) (d : Nat) :
    (derReadElementContentAsO D leaf i tag length constructed d).1 =
      derReadElementContentAs D i tag length constructed d := by
  unfold derReadElementContentAsO derReadElementContentAs
  simp only [Tick.fst_bind, Tick.fst_free]
  congr 1; funext l
  split
  · rfl
  · split
    · rfl
    · simp only [Tick.fst_bind, lookTwo_fst, berReadElementContentAsO_fst]

theorem derUnknownO_fst (i : Bytes) (h : Header) (d : Nat) :
    (derUnknownO i h d).1 = derUnknown i h d := by
  simp only [derUnknownO, derUnknown, Tick.fst_bind, getObjectContentO_fst, Tick.fst_free]

theorem derReadElementContentRecursiveO_fst (D : Deps) (leaf : Any → Nat) (i : Bytes) (h : Header) (d : Nat) :
    (derReadElementContentRecursiveO D leaf i h d).1 = derReadElementContentRecursive D i h d := by
  unfold derReadElementContentRecursiveO derReadElementContentRecursive
  split
  · exact derUnknownO_fst i h d
  · dsimp only
    rw [derReadElementContentAsO_fst]
    split <;> simp_all [derUnknownO_fst]

/-- C143: counting does not change the results. -/
theorem C143_same_results (D : Deps) (leaf : Any → Nat) (d t : Nat) (i : Bytes) :
    (parseBerRecursiveO D leaf d i).1 = parseBerRecursive D d i ∧
    (parseBerWithTagO D leaf t i).1 = parseBerWithTag D t i ∧
    (parseDerRecursiveO D leaf d i).1 = parseDerRecursive D d i ∧
    (parseDerWithTagO D leaf t i).1 = parseDerWithTag D t i := by
  refine ⟨?_, ?_, ?_, ?_⟩
  · unfold parseBerRecursiveO parseBerRecursive parseBerAnyR
    split
    · rfl
    · simp only [Tick.fst_bind, anyFromBerO_fst, Tick.fst_mapErr, objectFromAnyO_fst, Tick.fst_free]
      rfl
  · simp only [parseBerWithTagO, parseBerWithTag, Tick.fst_bind, lookHeader_fst, Tick.fst_free,
      berReadElementContentAsO_fst]
  · simp only [parseDerRecursiveO, parseDerRecursive, Tick.fst_bind, lookHeader_fst]
    congr 1; funext r
    cases r.2.length with
    | definite l =>
      dsimp only
      split
      · rfl
      · exact derReadElementContentRecursiveO_fst ..
    | indefinite => exact derReadElementContentRecursiveO_fst ..
  · simp only [parseDerWithTagO, parseDerWithTag, Tick.fst_bind, lookHeader_fst, Tick.fst_free,
      derReadElementContentAsO_fst]

/-! ## No header read depends on octets behind the first 133 -/

theorem tagLoop_window (c t : Bytes) : ∀ (n a : Nat), 6 ≤ c.length + n → tagLoop (c ++ t) n a = tagLoop c n a := by
  induction c with
  | nil =>
    intro n a h
    simp only [List.length_nil] at h
    cases t with
    | nil => rfl
    | cons b t => simp [tagLoop, show n > 5 by omega]
  | cons b c ih =>
    intro n a h
    simp only [List.cons_append, tagLoop]
    split
    · rfl
    · split
      · rfl
      · exact ih _ _ (by simp only [List.length_cons] at h; omega)

theorem tagLoop_size (c : Bytes) : ∀ (n a : Nat) (r : Nat × Nat), n ≤ 6 → tagLoop c n a = .ok r →
    r.2 ≤ 6 ∧ r.2 ≤ c.length + n := by
  induction c with
  | nil => intro n a r _ h; simp [tagLoop] at h
  | cons b c ih =>
    intro n a r hn h
    simp only [tagLoop] at h
    split at h
    · cases h
    · split at h
      · cases h; simp only [List.length_cons]; omega
      · have := ih _ _ _ (by omega) h
        simp only [List.length_cons]; omega

theorem parseIdentifier_window {i : Bytes} (t : Bytes) (hi : 6 ≤ i.length) :
    parseIdentifier (i ++ t) = (parseIdentifier i).map (fun r => (r.1 ++ t, r.2)) ∧
    ∀ r, parseIdentifier i = .ok r → i.length ≤ r.1.length + 6 := by
  cases i with
  | nil => simp at hi
  | cons b c =>
    simp only [List.length_cons] at hi
    simp only [List.cons_append, parseIdentifier]
    split
    · rw [tagLoop_window c t 1 0 (by omega)]
      cases hq : tagLoop c 1 0 with
      | ok r =>
        have := tagLoop_size c 1 0 r (by omega) hq
        have h1 : r.2 ≤ (b :: c).length := by simp only [List.length_cons]; omega
        refine ⟨?_, fun q hq' => ?_⟩
        · simp only [ok_bind, Outcome.map]
          rw [← List.cons_append, List.drop_append_of_le_length h1, List.take_append_of_le_length h1]
        · simp only [ok_bind] at hq'
          cases hq'
          simp only [List.length_drop]; omega
      | err e => exact ⟨rfl, by simp⟩
      | panic => exact ⟨rfl, by simp⟩
      | diverge => exact ⟨rfl, by simp⟩
    · refine ⟨rfl, fun q hq' => ?_⟩
      cases hq'
      simp only [List.length_cons]; omega

theorem parseLength_window {x : Outcome (NomErr BerError) Length} {i : Bytes} (t : Bytes) (hi : 127 ≤ i.length) :
    parseLength x (i ++ t) = (parseLength x i).map (fun r => (r.1 ++ t, r.2)) ∧
    ∀ r, parseLength x i = .ok r → i.length ≤ r.1.length + 127 := by
  cases i with
  | nil => simp at hi
  | cons b c =>
    simp only [List.length_cons] at hi
    simp only [List.cons_append, parseLength]
    have hb : b.toNat % 128 ≤ 127 := by omega
    split
    · exact ⟨rfl, fun q h => by cases h; simp only [List.length_cons]; omega⟩
    split
    · refine ⟨by cases x <;> rfl, fun q h => ?_⟩
      cases x <;> cases h
      simp only [List.length_cons]; omega
    split
    · exact ⟨rfl, by simp⟩
    · rename_i h127
      have hl : b.toNat % 128 ≤ c.length := by omega
      have h1 : takeStreaming (E := BerError) (b.toNat % 128) (c ++ t) =
          .ok (c.drop (b.toNat % 128) ++ t, c.take (b.toNat % 128)) := by
        unfold takeStreaming
        rw [if_neg (by rw [List.length_append]; omega), List.drop_append_of_le_length hl,
          List.take_append_of_le_length hl]
      have h2 : takeStreaming (E := BerError) (b.toNat % 128) c =
          .ok (c.drop (b.toNat % 128), c.take (b.toNat % 128)) := by
        unfold takeStreaming
        rw [if_neg (by omega)]
      rw [h1, h2]
      simp only [ok_bind]
      split
      · exact ⟨rfl, by simp⟩
      · refine ⟨rfl, fun q h => ?_⟩
        cases h
        simp only [List.length_cons, List.length_drop]; omega

theorem headerWith_window {x : Ident → Outcome (NomErr BerError) Length} {i : Bytes} (t : Bytes)
    (hi : 133 ≤ i.length) {p : Bytes → IRes BerError Header}
    (hp : ∀ j, p j = parseIdentifier j >>? fun r => parseLength (x r.2) r.1 >>? fun s =>
      .ok (s.1, { cls := r.2.cls, constructed := r.2.constructed, tag := r.2.tag,
                  length := s.2, rawTag := some r.2.raw })) :
    p (i ++ t) = (p i).map (fun r => (r.1 ++ t, r.2)) ∧ ∀ r, p i = .ok r → i.length ≤ r.1.length + 133 := by
  obtain ⟨h1, h2⟩ := parseIdentifier_window (i := i) t (by omega)
  rw [hp, hp, h1]
  cases hq : parseIdentifier i with
  | ok r =>
    have h3 := h2 r hq
    obtain ⟨h4, h5⟩ := parseLength_window (x := x r.2) (i := r.1) t (by omega)
    simp only [Outcome.map, ok_bind]
    rw [h4]
    cases hs : parseLength (x r.2) r.1 with
    | ok s =>
      have := h5 s hs
      refine ⟨rfl, fun q h => ?_⟩
      simp only [ok_bind] at h
      cases h
      dsimp only
      omega
    | err e => exact ⟨rfl, by simp⟩
    | panic => exact ⟨rfl, by simp⟩
    | diverge => exact ⟨rfl, by simp⟩
  | err e => exact ⟨rfl, by simp⟩
  | panic => exact ⟨rfl, by simp⟩
  | diverge => exact ⟨rfl, by simp⟩

/-- C143: what a header read answers does not depend on octets behind the first 133, and a header has at
most 133 octets. -/
theorem C143_window (i t : Bytes) (hi : 133 ≤ i.length) :
    headerFromBer (i ++ t) = (headerFromBer i).map (fun r => (r.1 ++ t, r.2)) ∧
    headerFromDer (i ++ t) = (headerFromDer i).map (fun r => (r.1 ++ t, r.2)) ∧
    (∀ r, headerFromBer i = .ok r → i.length ≤ r.1.length + 133) ∧
    (∀ r, headerFromDer i = .ok r → i.length ≤ r.1.length + 133) := by
  have h1 := headerWith_window
    (x := fun r => if r.constructed then .ok .indefinite else .err (.error .constructExpected)) t hi
    (p := headerFromBer) fun _ => rfl
  have h2 := headerWith_window
    (x := fun _ => .err (.error (.derConstraintFailed .indefiniteLength))) t hi
    (p := headerFromDer) fun _ => rfl
  exact ⟨h1.1, h2.1, h1.2, h2.2⟩

/-! ## Bounds -/

/-- At most `n` octets were looked at, and on success `f a` is left over. -/
def PaidOctets {ε α : Type} (x : Tick ε α) (n : Nat) (f : α → Nat) : Prop :=
  (∀ a, x.1 = .ok a → x.2 + f a ≤ n) ∧ x.2 ≤ n

section
variable {ε ε' α β : Type}

theorem PaidOctets.bind {x : Tick ε α} {n : Nat} {f : α → Nat} {g : α → Tick ε β} {h : β → Nat}
    (hx : PaidOctets x n f) (hg : ∀ a, x.1 = .ok a → PaidOctets (g a) (f a) h) : PaidOctets (x.bind g) n h := by
  obtain ⟨h1, h2⟩ := hx
  unfold Tick.bind
  match hq : x.1 with
  | .ok a =>
    have h3 := h1 a hq
    obtain ⟨h4, h5⟩ := hg a hq
    exact ⟨fun b hb => by have := h4 b hb; dsimp only; omega, by dsimp only; omega⟩
  | .err e => exact ⟨by simp, h2⟩
  | .panic => exact ⟨by simp, h2⟩
  | .diverge => exact ⟨by simp, h2⟩

theorem PaidOctets.frame {x : Tick ε α} {n n' : Nat} (m : Nat) {f f' : α → Nat} (hx : PaidOctets x n f)
    (hf : ∀ a, x.1 = .ok a → f' a ≤ f a + m) (hn : n + m ≤ n') : PaidOctets x n' f' :=
  ⟨fun a ha => by have := hx.1 a ha; have := hf a ha; omega, by have := hx.2; omega⟩

theorem PaidOctets.free {x : Outcome ε α} {n : Nat} {f : α → Nat} (h : ∀ a, x = .ok a → f a ≤ n) :
    PaidOctets (Tick.free x) n f :=
  ⟨fun a ha => by have := h a ha; simp [Tick.free]; exact this, by simp [Tick.free]⟩

theorem PaidOctets.mapErr {x : Tick ε α} {n : Nat} {f : α → Nat} (g : ε → ε') (h : PaidOctets x n f) :
    PaidOctets (x.mapErr g) n f := by
  refine ⟨fun a ha => h.1 a ?_, h.2⟩
  have ha : x.1.mapErr g = .ok a := ha
  cases hq : x.1 <;> rw [hq] at ha <;> simp at ha
  rw [ha]

theorem PaidOctets.map {x : Tick ε α} {n : Nat} {f : β → Nat} (g : α → β)
    (h : PaidOctets x n fun a => f (g a)) : PaidOctets (x.map g) n f := by
  refine ⟨fun b hb => ?_, h.2⟩
  have hb : x.1.map g = .ok b := hb
  match hq : x.1 with
  | .ok a => rw [hq] at hb; cases hb; exact h.1 a hq
  | .err _ | .panic | .diverge => rw [hq] at hb; cases hb
end

private theorem lookDer_pos {i : Bytes} {r : Bytes × Header} (h : headerFromDer i = .ok r) :
    r.1.length + 2 ≤ i.length := by
  have := (within_headerFromDer i).1 r h
  simp only [Tick.read] at this
  omega

theorem octets_look {p : Bytes → IRes BerError Header} {i : Bytes} (hp : ∀ r, p i = .ok r → r.1.length + 2 ≤ i.length) :
    PaidOctets (lookHeader p i) i.length fun r => r.1.length := by
  unfold lookHeader headerOctets
  refine ⟨fun r hr => ?_, ?_⟩
  · have hr : p i = .ok r := hr
    have := hp r hr
    simp only [hr]; omega
  · dsimp only
    split <;> omega

theorem octets_headerFromBer (i : Bytes) : PaidOctets (lookHeader headerFromBer i) i.length fun r => r.1.length :=
  octets_look fun r hr => headerFromBer_pos (rem := r.1) (h := r.2) hr

theorem octets_headerFromDer (i : Bytes) : PaidOctets (lookHeader headerFromDer i) i.length fun r => r.1.length :=
  octets_look fun _ hr => lookDer_pos hr

theorem octets_skipContent (d : Nat) :
    ∀ h i, PaidOctets (skipContentO d h i) i.length fun r => r.1.length := by
  induction d with
  | zero => intro h i; exact .free (by simp)
  | succ d ih =>
    intro h i
    have loop : ∀ fuel i, PaidOctets (skipLoopO (skipContentO d) fuel i) i.length fun r => r.1.length := by
      intro fuel
      induction fuel with
      | zero => intro i; exact .free (by simp)
      | succ fuel ihf =>
        intro i
        refine (octets_headerFromBer i).bind fun r2 _ => (ih r2.2 r2.1).bind fun r3 _ => ?_
        split
        · exact .free fun a ha => by cases ha; exact Nat.le_refl _
        · exact ihf _
    rw [skipContentO]
    cases h.length with
    | definite l =>
      refine .free fun a ha => ?_
      split at ha
      · cases ha; exact Nat.le_refl _
      · obtain ⟨r, h1, h2⟩ := bind_eq_ok.1 ha
        cases h2
        unfold takeStreaming at h1
        split at h1
        · cases h1
        · cases h1; simp
    | indefinite =>
      dsimp only
      split
      · exact loop _ _
      · exact .free (by simp)

theorem octets_getObjectContent (d : Nat) (h : Header) (i : Bytes) :
    PaidOctets (getObjectContentO d h i) i.length fun r => r.1.length := by
  refine (octets_skipContent d h i).bind fun r _ => .free fun a ha => ?_
  have key : a.1 = i.drop (i.length - r.1.length) := by
    split at ha
    · split at ha
      · cases ha
      · cases ha; rfl
    · cases ha; rfl
  rw [key, List.length_drop]
  omega

theorem octets_anyFromBer (i : Bytes) : PaidOctets (anyFromBerO i) i.length fun r => r.1.length :=
  (octets_headerFromBer i).bind fun r _ => (octets_getObjectContent _ r.2 r.1).bind fun _ _ =>
    .free fun a ha => by cases ha; exact Nat.le_refl _

theorem anyFromBer_size {i rem : Bytes} {a : Any} (h : anyFromBer i = .ok (rem, a)) :
    a.data.length + 2 + rem.length ≤ i.length := by
  obtain ⟨e, rfl, hF⟩ := anyFromBer_framed.1 h
  have := framed_length hF
  rw [List.length_append]
  omega

private theorem mapErr_ok {ε ε' α : Type} {x : Tick ε α} {g : ε → ε'} {r : α} (h : (x.mapErr g).1 = .ok r) : x.1 = .ok r := by
  have h : x.1.mapErr g = .ok r := h
  cases hq : x.1 <;> rw [hq] at h <;> simp at h
  rw [h]

/-- What reading an element leaves over pays for its value and for what follows. -/
theorem anyFromBer_share {k : Nat} {i : Bytes} {r : Bytes × Any} (h : anyFromBer i = .ok r) :
    k * (r.2.data.length + 2) + (k + 1) * r.1.length ≤ r.1.length + k * i.length := by
  have h1 := anyFromBer_size (rem := r.1) (a := r.2) h
  have h2 := Nat.mul_le_mul_left k h1
  rw [Nat.mul_add] at h2
  rw [Nat.add_mul, Nat.one_mul]
  omega

theorem octets_collect {conv : Any → Tick BerError BerObject} {k : Nat}
    (hc : ∀ a, PaidOctets (conv a) (k * (a.data.length + 2)) fun _ => 0) :
    ∀ fuel data, PaidOctets (collectItemsO conv fuel data) ((k + 1) * data.length) fun _ => 0 := by
  intro fuel
  induction fuel with
  | zero => intro data; exact .free (by simp)
  | succ fuel ih =>
    intro data
    cases data with
    | nil => exact .free (by simp)
    | cons b data =>
      rw [collectItemsO]
      generalize b :: data = i
      refine PaidOctets.bind (f := fun r => k * (r.2.data.length + 2) + (k + 1) * r.1.length)
        ((octets_anyFromBer i).mapErr errOfNom |>.frame (k * i.length) ?_ ?_) fun r _ => ?_
      · intro r hr
        have hr := mapErr_ok hr
        rw [anyFromBerO_fst] at hr
        exact anyFromBer_share hr
      · rw [Nat.add_mul, Nat.one_mul]; omega
      · refine PaidOctets.bind (f := fun _ => (k + 1) * r.1.length)
          ((hc r.2).frame ((k + 1) * r.1.length) (by intro _ _; omega) (by omega)) fun o _ => ?_
        exact (ih r.1).bind fun os _ => .free (by simp)

theorem octets_objectFromAny (D : Deps) {leaf : Any → Nat} {K : Nat} (hl : ∀ a, leaf a ≤ K * (a.data.length + 2))
    (d : Nat) : ∀ a, PaidOctets (objectFromAnyO D leaf d a) ((d + K) * (a.data.length + 2)) fun _ => 0 := by
  induction d with
  | zero => intro a; exact .free (by simp)
  | succ d ih =>
    intro a
    have hle : (d + K + 1) * a.data.length ≤ (d + 1 + K) * (a.data.length + 2) :=
      Nat.mul_le_mul (by omega) (by omega)
    have hc := (octets_collect ih (a.data.length + 1) a.data).frame (f' := fun _ => 0) 0 (by simp) hle
    rw [objectFromAnyO]
    split
    · exact .free (by simp)
    · refine .map _ ?_
      unfold universalContentO
      split
      · exact PaidOctets.bind (f := fun _ => (d + 1 + K) * (a.data.length + 2)) (.free (by simp)) fun _ _ => .map _ hc
      · exact PaidOctets.bind (f := fun _ => (d + 1 + K) * (a.data.length + 2)) (.free (by simp)) fun _ _ => .map _ hc
      · have h1 := hl a
        have h2 : K * (a.data.length + 2) ≤ (d + 1 + K) * (a.data.length + 2) := Nat.mul_le_mul_right _ (by omega)
        exact ⟨fun _ _ => by dsimp only; omega, by dsimp only; omega⟩

theorem octets_berReadElementContentAs (D : Deps) {leaf : Any → Nat} {K : Nat}
    (hl : ∀ a, leaf a ≤ K * (a.data.length + 2)) (i : Bytes) (tag : Nat) (length : Length) (constructed : Bool) (d : Nat) :
    PaidOctets (berReadElementContentAsO D leaf i tag length constructed d) (i.length + (d + K) * (i.length + 2))
      fun r => (d + K + 1) * r.1.length := by
  have go : ∀ header : Header, PaidOctets ((getObjectContentO d header i).bind fun r =>
      ((objectFromAnyO D leaf d { header, data := r.2 }).mapErr NomErr.error).bind fun o =>
        .free (.ok (r.1, o.content))) (i.length + (d + K) * (i.length + 2)) fun r => (d + K + 1) * r.1.length := by
    intro header
    refine PaidOctets.bind (f := fun r => (d + K) * (r.2.length + 2) + (d + K + 1) * r.1.length)
      ((octets_getObjectContent d header i).frame ((d + K) * (i.length + 2)) ?_ (by omega)) fun r _ => ?_
    · intro r hr
      rw [getObjectContentO_fst] at hr
      have h1 := getObjectContent_data (rem := r.1) (c := r.2) hr
      have h2 := Nat.mul_le_mul_left (d + K) (show r.2.length + 2 + r.1.length ≤ i.length + 2 by omega)
      rw [Nat.mul_add] at h2
      rw [Nat.add_mul (d + K) 1, Nat.one_mul]
      omega
    · exact PaidOctets.bind (f := fun _ => (d + K + 1) * r.1.length)
        ((octets_objectFromAny D hl d ⟨header, r.2⟩).mapErr _ |>.frame ((d + K + 1) * r.1.length)
          (by intro _ _; omega) (by dsimp only; omega))
        fun o _ => .free fun a ha => by cases ha; exact Nat.le_refl _
  unfold berReadElementContentAsO
  cases length with
  | definite l =>
    dsimp only
    split
    · exact .free (by simp)
    · split
      · exact .free (by simp)
      · exact go _
  | indefinite => exact go _

/-- What reading a header leaves over pays for the contents. -/
theorem header_share {k m n : Nat} (h : m + 2 ≤ n) : m + k * (m + 2) ≤ m + k * n :=
  Nat.add_le_add_left (Nat.mul_le_mul_left k h) m

/-! ## C143 -/

/-- C143: if the conversion of a value costs at most `K` for each octet of it and `2 * K` besides, then `parse_ber` with
recursion limit `d` costs at most `d + K + 1` for each octet consumed, and on failure for each octet of the input. -/
theorem C143_parse_ber (D : Deps) (leaf : Any → Nat) (K : Nat) (hl : ∀ a, leaf a ≤ K * (a.data.length + 2))
    (d : Nat) (i : Bytes) :
    (parseBerRecursiveO D leaf d i).2 ≤ (d + K + 1) * i.length ∧
    ∀ rem o, parseBerRecursive D d i = .ok (rem, o) →
      (parseBerRecursiveO D leaf d i).2 ≤ (d + K + 1) * (i.length - rem.length) := by
  have key : PaidOctets (parseBerRecursiveO D leaf d i) ((d + K + 1) * i.length) fun r => (d + K + 1) * r.1.length := by
    unfold parseBerRecursiveO
    split
    · exact .free (by simp)
    · refine PaidOctets.bind (f := fun r => (d + K) * (r.2.data.length + 2) + (d + K + 1) * r.1.length)
        ((octets_anyFromBer i).frame ((d + K) * i.length) ?_ ?_) fun r _ => ?_
      · intro r hr
        rw [anyFromBerO_fst] at hr
        exact anyFromBer_share hr
      · rw [Nat.add_mul (d + K) 1, Nat.one_mul]; omega
      · exact PaidOctets.bind (f := fun _ => (d + K + 1) * r.1.length)
          ((octets_objectFromAny D hl d r.2).mapErr _ |>.frame ((d + K + 1) * r.1.length)
            (by intro _ _; omega) (by omega))
          fun o _ => .free fun a ha => by cases ha; exact Nat.le_refl _
  refine ⟨key.2, fun rem o h => ?_⟩
  have h1 := key.1 (rem, o) (by rw [(C143_same_results D leaf d 0 i).1]; exact h)
  rw [Nat.mul_sub]
  dsimp only at h1
  omega

/-- C143 for `parse_ber_with_tag`, i.e. all typed BER parsers. -/
theorem C143_parse_ber_with_tag (D : Deps) (leaf : Any → Nat) (K : Nat) (hl : ∀ a, leaf a ≤ K * (a.data.length + 2))
    (t : Nat) (i : Bytes) : (parseBerWithTagO D leaf t i).2 ≤ (K + 51) * i.length := by
  have key : PaidOctets (parseBerWithTagO D leaf t i) (i.length + (50 + K) * i.length) fun _ => 0 := by
    refine PaidOctets.bind (f := fun r => r.1.length + (50 + K) * (r.1.length + 2))
      ((octets_headerFromBer i).frame ((50 + K) * i.length) ?_ (Nat.le_refl _)) fun r _ => ?_
    · exact fun r hr => header_share (headerFromBer_pos (rem := r.1) (h := r.2) hr)
    · refine PaidOctets.bind (f := fun _ => r.1.length + (50 + K) * (r.1.length + 2)) (.free (by simp)) fun _ _ => ?_
      exact PaidOctets.bind (f := fun _ => 0)
        ((octets_berReadElementContentAs D hl r.1 _ _ _ _).frame 0 (by simp) (by simp [maxRecursion]))
        fun s _ => .free (by simp)
  have h1 := key.2
  have h2 : (K + 51) * i.length = i.length + (50 + K) * i.length := by
    rw [show K + 51 = (50 + K) + 1 by omega, Nat.add_mul (50 + K) 1, Nat.one_mul]; omega
  omega

theorem octets_derReadElementContentAs (D : Deps) {leaf : Any → Nat} {K : Nat}
    (hl : ∀ a, leaf a ≤ K * (a.data.length + 2)) (i : Bytes) (tag : Nat) (length : Length) (constructed : Bool) (d : Nat) :
    PaidOctets (derReadElementContentAsO D leaf i tag length constructed d) (i.length + (d + K) * (i.length + 2) + 2)
      fun _ => 0 := by
  refine PaidOctets.bind (f := fun _ => i.length + (d + K) * (i.length + 2) + 2) (.free (by simp)) fun l _ => ?_
  split
  · exact .free (by simp)
  · split
    · exact ⟨fun _ _ => by simp only [lookTwo]; omega, by simp only [lookTwo]; omega⟩
    · exact PaidOctets.bind (f := fun _ => i.length + (d + K) * (i.length + 2))
        ⟨fun _ _ => by simp only [lookTwo]; omega, by simp only [lookTwo]; omega⟩ fun _ _ =>
        (octets_berReadElementContentAs D hl i tag length constructed d).frame 0 (by simp) (by omega)

theorem derUnknownO_free {i : Bytes} {h : Header} {d : Nat} (hl : h.length ≠ .indefinite) :
    (derUnknownO i h d).2 = 0 := by
  have h1 : (skipContentO d h i).2 = 0 := by
    cases d with
    | zero => rfl
    | succ d =>
      rw [skipContentO]
      cases hq : h.length with
      | indefinite => exact absurd hq hl
      | definite l => rfl
  have h2 : (getObjectContentO d h i).2 = 0 := by
    unfold getObjectContentO Tick.bind
    split <;> simp [h1, Tick.free]
  unfold derUnknownO Tick.bind
  split <;> simp [h2, Tick.free]

/-- C143 for `parse_der` with any recursion limit; the checks of DER look at two octets more. -/
theorem C143_parse_der (D : Deps) (leaf : Any → Nat) (K : Nat) (hl : ∀ a, leaf a ≤ K * (a.data.length + 2))
    (d : Nat) (i : Bytes) : (parseDerRecursiveO D leaf d i).2 ≤ (d + K + 1) * i.length + 2 := by
  have content : ∀ i h, h.length ≠ .indefinite →
      (derReadElementContentRecursiveO D leaf i h d).2 ≤ i.length + (d + K) * (i.length + 2) + 2 := by
    intro i h hi
    unfold derReadElementContentRecursiveO
    have h1 := (octets_derReadElementContentAs D hl i h.tag h.length h.constructed d).2
    split
    · rw [derUnknownO_free hi]; omega
    · dsimp only
      split <;> dsimp only <;> first | exact h1 | (rw [derUnknownO_free hi]; exact h1)
  have key : PaidOctets (parseDerRecursiveO D leaf d i) (i.length + (d + K) * i.length + 2) fun _ => 0 := by
    refine PaidOctets.bind (f := fun r => r.1.length + (d + K) * (r.1.length + 2) + 2)
      ((octets_headerFromDer i).frame ((d + K) * i.length + 2) ?_ (by omega)) fun r hr => ?_
    · intro r hr
      have := header_share (k := d + K) (lookDer_pos hr)
      omega
    · have hi : r.2.length ≠ .indefinite := by
        obtain ⟨hb, -, h⟩ := headerFromDer_iff.1 (show headerFromDer i = .ok (r.1, r.2) from hr)
        exact h.definite
      have h1 := content r.1 r.2 hi
      split
      · split
        · exact .free (by simp)
        · exact ⟨fun _ _ => by omega, h1⟩
      · exact ⟨fun _ _ => by omega, h1⟩
  have h1 := key.2
  rw [Nat.add_mul (d + K) 1, Nat.one_mul]
  omega

/-- C143 for `parse_der_with_tag`, i.e. all typed DER parsers. -/
theorem C143_parse_der_with_tag (D : Deps) (leaf : Any → Nat) (K : Nat) (hl : ∀ a, leaf a ≤ K * (a.data.length + 2))
    (t : Nat) (i : Bytes) : (parseDerWithTagO D leaf t i).2 ≤ (K + 51) * i.length + 2 := by
  have key : PaidOctets (parseDerWithTagO D leaf t i) (i.length + (50 + K) * i.length + 2) fun _ => 0 := by
    refine PaidOctets.bind (f := fun r => r.1.length + (50 + K) * (r.1.length + 2) + 2)
      ((octets_headerFromDer i).frame ((50 + K) * i.length + 2) ?_ (by omega)) fun r _ => ?_
    · intro r hr
      have := header_share (k := 50 + K) (lookDer_pos hr)
      omega
    · refine PaidOctets.bind (f := fun _ => r.1.length + (50 + K) * (r.1.length + 2) + 2) (.free (by simp)) fun _ _ => ?_
      exact PaidOctets.bind (f := fun _ => 0)
        ((octets_derReadElementContentAs D hl r.1 _ _ _ _).frame 0 (by simp) (by simp [maxRecursion]))
        fun s _ => .free (by simp)
  have h1 := key.2
  have h2 : (K + 51) * i.length = i.length + (50 + K) * i.length := by
    rw [show K + 51 = (50 + K) + 1 by omega, Nat.add_mul (50 + K) 1, Nat.one_mul]; omega
  omega

/-! ## The counts are not too small -/

/-- The same outcome, and on success `y` costs at least twice as much as `x`. -/
def TwiceCost {ε α : Type} (x y : Tick ε α) : Prop := x.1 = y.1 ∧ ∀ a, x.1 = .ok a → 2 * x.2 ≤ y.2

section
variable {ε ε' α β : Type}

theorem TwiceCost.bind {x y : Tick ε α} {f g : α → Tick ε β} (h : TwiceCost x y)
    (hf : ∀ a, TwiceCost (f a) (g a)) : TwiceCost (x.bind f) (y.bind g) := by
  obtain ⟨h1, h2⟩ := h
  refine ⟨?_, fun b hb => ?_⟩
  · rw [Tick.fst_bind, Tick.fst_bind, h1]
    congr 1; funext a; exact (hf a).1
  · rw [Tick.fst_bind] at hb
    obtain ⟨a, ha, hb⟩ := bind_eq_ok.1 hb
    have h3 := h2 a ha
    have h4 := (hf a).2 b hb
    simp only [Tick.bind, ← h1, ha]
    omega

theorem TwiceCost.free (x : Outcome ε α) : TwiceCost (Tick.free x) (Tick.free x) :=
  ⟨rfl, fun _ _ => by simp [Tick.free]⟩

theorem TwiceCost.step (x : Outcome ε α) (n : Nat) : TwiceCost (Tick.free x) (x, n) :=
  ⟨rfl, fun _ _ => by simp [Tick.free]⟩

theorem TwiceCost.mapErr {x y : Tick ε α} (g : ε → ε') (h : TwiceCost x y) : TwiceCost (x.mapErr g) (y.mapErr g) :=
  ⟨congrArg (Outcome.mapErr g) h.1, fun a ha => h.2 a (mapErr_ok ha)⟩

theorem TwiceCost.map {x y : Tick ε α} (g : α → β) (h : TwiceCost x y) : TwiceCost (x.map g) (y.map g) := by
  refine ⟨congrArg (Outcome.map g) h.1, fun b hb => ?_⟩
  have hb : x.1.map g = .ok b := hb
  match hq : x.1 with
  | .ok a => exact h.2 a hq
  | .err _ | .panic | .diverge => rw [hq] at hb; cases hb
end

theorem twice_look {p : Bytes → IRes BerError Header} {i : Bytes} (hp : ∀ r, p i = .ok r → r.1.length + 2 ≤ i.length) :
    TwiceCost (Tick.read (p i)) (lookHeader p i) := by
  refine ⟨rfl, fun r hr => ?_⟩
  have hr : p i = .ok r := hr
  have := hp r hr
  simp only [Tick.read, lookHeader, headerOctets, hr]
  omega

theorem twice_ber (i : Bytes) : TwiceCost (Tick.read (headerFromBer i)) (lookHeader headerFromBer i) :=
  twice_look fun r hr => headerFromBer_pos (rem := r.1) (h := r.2) hr

theorem twice_der (i : Bytes) : TwiceCost (Tick.read (headerFromDer i)) (lookHeader headerFromDer i) :=
  twice_look fun _ hr => lookDer_pos hr

theorem twice_skipContent (d : Nat) : ∀ h i, TwiceCost (skipContentT d h i) (skipContentO d h i) := by
  induction d with
  | zero => intro h i; exact .free _
  | succ d ih =>
    intro h i
    have loop : ∀ fuel i, TwiceCost (skipLoopT (skipContentT d) fuel i) (skipLoopO (skipContentO d) fuel i) := by
      intro fuel
      induction fuel with
      | zero => intro i; exact .free _
      | succ fuel ihf =>
        intro i
        refine (twice_ber i).bind fun r2 => (ih r2.2 r2.1).bind fun r3 => ?_
        split
        · exact .free _
        · exact ihf _
    rw [skipContentT, skipContentO]
    cases h.length with
    | definite l => exact .free _
    | indefinite =>
      dsimp only
      split
      · exact loop _ _
      · exact .free _

theorem twice_getObjectContent (d : Nat) (h : Header) (i : Bytes) :
    TwiceCost (getObjectContentT d h i) (getObjectContentO d h i) :=
  (twice_skipContent d h i).bind fun _ => .free _

theorem twice_anyFromBer (i : Bytes) : TwiceCost (anyFromBerT i) (anyFromBerO i) :=
  (twice_ber i).bind fun _ => (twice_getObjectContent _ _ _).bind fun _ => .free _

theorem twice_collect {conv conv' : Any → Tick BerError BerObject} (hc : ∀ a, TwiceCost (conv a) (conv' a)) :
    ∀ fuel data, TwiceCost (collectItemsT conv fuel data) (collectItemsO conv' fuel data) := by
  intro fuel
  induction fuel with
  | zero => intro data; exact .free _
  | succ fuel ih =>
    intro data
    cases data with
    | nil => exact .free _
    | cons b data =>
      exact ((twice_anyFromBer _).mapErr _).bind fun r => (hc r.2).bind fun o => (ih r.1).bind fun _ => .free _

theorem twice_objectFromAny (D : Deps) (leaf : Any → Nat) (d : Nat) :
    ∀ a, TwiceCost (objectFromAnyT D d a) (objectFromAnyO D leaf d a) := by
  induction d with
  | zero => intro a; exact .free _
  | succ d ih =>
    intro a
    rw [objectFromAnyT, objectFromAnyO]
    split
    · exact .free _
    · refine .map _ ?_
      have hf : (fun b => (objectFromAnyT D d b).1) = fun b => (objectFromAnyO D leaf d b).1 :=
        funext fun b => (ih b).1
      unfold universalContentT universalContentO
      rw [hf]
      cases uKind a.header.tag
      case sequence => exact (TwiceCost.free _).bind fun _ => .map _ (twice_collect ih _ _)
      case set => exact (TwiceCost.free _).bind fun _ => .map _ (twice_collect ih _ _)
      all_goals exact .step _ _

theorem twice_berReadElementContentAs (D : Deps) (leaf : Any → Nat) (i : Bytes) (t : Nat) (l : Length) (c : Bool) (d : Nat) :
    TwiceCost (berReadElementContentAsT D i t l c d) (berReadElementContentAsO D leaf i t l c d) := by
  have go : ∀ header : Header, TwiceCost
      ((getObjectContentT d header i).bind fun r =>
        ((objectFromAnyT D d { header, data := r.2 }).mapErr NomErr.error).bind fun o => .free (.ok (r.1, o.content)))
      ((getObjectContentO d header i).bind fun r =>
        ((objectFromAnyO D leaf d { header, data := r.2 }).mapErr NomErr.error).bind fun o =>
          .free (.ok (r.1, o.content))) := fun header =>
    (twice_getObjectContent d header i).bind fun _ => ((twice_objectFromAny D leaf d _).mapErr _).bind fun _ => .free _
  unfold berReadElementContentAsT berReadElementContentAsO
  cases l with
  | definite l =>
    dsimp only
    split
    · exact .free _
    · split
      · exact .free _
      · exact go _
  | indefinite => exact go _

/-- C143: on success at least two octets are counted for each header read of C78. -/
theorem C143_at_least (D : Deps) (leaf : Any → Nat) (d t : Nat) (i rem : Bytes) (o : BerObject) :
    (parseBerRecursive D d i = .ok (rem, o) → 2 * (parseBerRecursiveT D d i).2 ≤ (parseBerRecursiveO D leaf d i).2) ∧
    (parseBerWithTag D t i = .ok (rem, o) → 2 * (parseBerWithTagT D t i).2 ≤ (parseBerWithTagO D leaf t i).2) ∧
    (parseDerWithTag D t i = .ok (rem, o) → 2 * (parseDerWithTagT D t i).2 ≤ (parseDerWithTagO D leaf t i).2) := by
  obtain ⟨e1, e2, -, e4⟩ := C78_same_results D d t i
  refine ⟨fun h => ?_, fun h => ?_, fun h => ?_⟩
  · have key : TwiceCost (parseBerRecursiveT D d i) (parseBerRecursiveO D leaf d i) := by
      unfold parseBerRecursiveT parseBerRecursiveO
      split
      · exact .free _
      · exact (twice_anyFromBer i).bind fun _ => ((twice_objectFromAny D leaf d _).mapErr _).bind fun _ => .free _
    exact key.2 _ (e1.trans h)
  · have key : TwiceCost (parseBerWithTagT D t i) (parseBerWithTagO D leaf t i) :=
      (twice_ber i).bind fun _ => (TwiceCost.free _).bind fun _ =>
        (twice_berReadElementContentAs D leaf _ _ _ _ _).bind fun _ => .free _
    exact key.2 _ (e2.trans h)
  · have key : TwiceCost (parseDerWithTagT D t i) (parseDerWithTagO D leaf t i) := by
      refine (twice_der i).bind fun r => (TwiceCost.free _).bind fun _ =>
        TwiceCost.bind ?_ fun _ => .free _
      refine (TwiceCost.free _).bind fun l => ?_
      split
      · exact .free _
      · split
        · exact .step _ _
        · exact (TwiceCost.step _ 2).bind fun _ => twice_berReadElementContentAs D leaf _ _ _ _ _
    exact key.2 _ (e4.trans h)

private theorem derHeader_ber {i : Bytes} {r : Bytes × Header} (h : headerFromDer i = .ok r) :
    headerFromBer i = .ok r := by
  unfold headerFromDer at h
  unfold headerFromBer
  obtain ⟨q, h1, h2⟩ := bind_eq_ok.1 h
  obtain ⟨s, h3, h4⟩ := bind_eq_ok.1 h2
  rw [h1]
  simp only [ok_bind]
  have h5 : ∀ x, parseLength x q.1 = .ok s := by
    intro x
    cases hq : q.1 with
    | nil => rw [hq] at h3; simp [parseLength] at h3
    | cons b c =>
      rw [hq] at h3
      simp only [parseLength] at h3 ⊢
      split
      · rename_i hb; rw [if_pos hb] at h3; exact h3
      · rename_i hb
        rw [if_neg hb] at h3
        split at h3
        · simp [Outcome.map] at h3
        · rename_i hz
          rw [if_neg hz]
          exact h3
  rw [h5]
  exact h4

/-- C143: the checks of DER count as two octets: a function for one type that succeeds counts exactly two more
with DER than with BER, and for a BIT STRING two more than the octets of the header. -/
theorem C143_der_checks (D : Deps) (leaf : Any → Nat) (t : Nat) (i rem : Bytes) (o : BerObject)
    (h : parseDerWithTag D t i = .ok (rem, o)) :
    if t = Tag.bitString then
      ∃ r, headerFromDer i = .ok r ∧ (parseDerWithTagO D leaf t i).2 = i.length - r.1.length + 2
    else (parseDerWithTagO D leaf t i).2 = (parseBerWithTagO D leaf t i).2 + 2 := by
  have h := (C143_same_results D leaf 0 t i).2.2.2.trans h
  unfold parseDerWithTagO at h
  simp only [Tick.fst_bind, lookHeader_fst, Tick.fst_free] at h
  obtain ⟨r, h1, h⟩ := bind_eq_ok.1 h
  obtain ⟨u, h2, h⟩ := bind_eq_ok.1 h
  obtain ⟨s, h3, h⟩ := bind_eq_ok.1 h
  have hb := derHeader_ber h1
  have ht : r.2.tag = t := by
    rw [liftRes_eq_ok] at h2
    unfold Header.assertTag at h2
    split at h2
    · assumption
    · cases h2
  unfold derReadElementContentAsO at h3
  simp only [Tick.fst_bind, Tick.fst_free] at h3
  obtain ⟨l, h4, h5⟩ := bind_eq_ok.1 h3
  by_cases hl : r.1.length < l
  · rw [if_pos hl] at h5; cases h5
  rw [if_neg hl, ht] at h5
  split
  · rename_i hbit
    refine ⟨r, h1, ?_⟩
    rw [if_pos hbit, lookTwo_fst] at h5
    simp only [parseDerWithTagO, Tick.bind, lookHeader, headerOctets, h1, Tick.free, h2, ht,
      derReadElementContentAsO, h4, if_neg hl, if_pos hbit, lookTwo, h5]
  · rename_i hbit
    rw [if_neg hbit] at h5
    simp only [Tick.fst_bind, lookTwo_fst] at h5
    obtain ⟨v, h6, h7⟩ := bind_eq_ok.1 h5
    simp only [parseDerWithTagO, parseBerWithTagO, Tick.bind, lookHeader, headerOctets, h1, hb, Tick.free, h2, ht,
      derReadElementContentAsO, h4, if_neg hl, if_neg hbit, lookTwo, h6, h7]
    omega

mutual
/-- The number of converted values in an object: those of universal class that are no SEQUENCE and no SET. -/
def valuesIn : BerObject → Nat
  | .mk h c => if h.cls ≠ .universal then 0 else valuesInC c
/-- The number of converted values in a content of universal class. -/
def valuesInC : Content → Nat
  | .sequence l => valuesInL l
  | .set l => valuesInL l
  | _ => 1
/-- The number of converted values in a list of objects. -/
def valuesInL : List BerObject → Nat
  | [] => 0
  | o :: l => valuesIn o + valuesInL l
end

/-- The same outcome, and on success `y` costs `c * g a` more than `x`. -/
def MoreCost {ε α : Type} (c : Nat) (g : α → Nat) (x y : Tick ε α) : Prop :=
  x.1 = y.1 ∧ ∀ a, x.1 = .ok a → y.2 = x.2 + c * g a

theorem valuesInC_leaf {D : Deps} {conv : Any → Res BerObject} {a : Any} {v : Content}
    (h : universalContent D conv a = .ok v) (h1 : uKind a.header.tag ≠ .sequence) (h2 : uKind a.header.tag ≠ .set) :
    valuesInC v = 1 := by
  cases v with
  | sequence l => exact absurd h (by
      unfold universalContent strFromAny
      repeat' split
      all_goals simp_all [Outcome.map_eq_ok])
  | set l => exact absurd h (by
      unfold universalContent strFromAny
      repeat' split
      all_goals simp_all [Outcome.map_eq_ok])
  | _ => rfl

theorem more_collect {c : Nat} {conv conv' : Any → Tick BerError BerObject}
    (hc : ∀ a, MoreCost c valuesIn (conv a) (conv' a)) :
    ∀ fuel data, MoreCost c valuesInL (collectItemsO conv fuel data) (collectItemsO conv' fuel data) := by
  intro fuel
  induction fuel with
  | zero => intro data; exact ⟨rfl, by simp [collectItemsO, Tick.free]⟩
  | succ fuel ih =>
    intro data
    cases data with
    | nil => exact ⟨rfl, fun a ha => by
        simp only [collectItemsO, Tick.free] at ha ⊢
        cases ha; simp [valuesInL]⟩
    | cons b data =>
      have he : (collectItemsO conv (fuel + 1) (b :: data)).1 = (collectItemsO conv' (fuel + 1) (b :: data)).1 := by
        have hf : (fun a => (conv a).1) = fun a => (conv' a).1 := funext fun a => (hc a).1
        rw [collectItemsO_fst, collectItemsO_fst, hf]
      refine ⟨he, fun l hl => ?_⟩
      simp only [collectItemsO, Tick.fst_bind, Tick.fst_mapErr, Tick.fst_free] at hl
      obtain ⟨r, h1, hl⟩ := bind_eq_ok.1 hl
      obtain ⟨o, h2, hl⟩ := bind_eq_ok.1 hl
      obtain ⟨os, h3, hl⟩ := bind_eq_ok.1 hl
      cases hl
      have a2 := (hc r.2).2 o h2
      have a3 := (ih r.1).2 os h3
      have b2 := (hc r.2).1 ▸ h2
      have b3 := (ih r.1).1 ▸ h3
      simp only [collectItemsO, Tick.bind, Tick.fst_mapErr, h1, h2, h3, b2, b3, Tick.free, valuesInL]
      rw [a2, a3, Nat.mul_add]
      omega

theorem more_objectFromAny (D : Deps) (c : Nat) (d : Nat) :
    ∀ a, MoreCost c valuesIn (objectFromAnyO D (fun _ => 0) d a) (objectFromAnyO D (fun _ => c) d a) := by
  induction d with
  | zero => intro a; exact ⟨rfl, by simp [objectFromAnyO, Tick.free]⟩
  | succ d ih =>
    intro a
    refine ⟨by rw [objectFromAnyO_fst, objectFromAnyO_fst], fun o ho => ?_⟩
    rw [objectFromAnyO] at ho ⊢
    rw [objectFromAnyO]
    split at ho
    · rename_i hcls
      cases ho
      simp [Tick.free, valuesIn, hcls]
    · rename_i hcls
      rw [if_neg hcls]
      simp only [Tick.fst_map] at ho
      obtain ⟨v, hv, rfl⟩ := Outcome.map_eq_ok.1 ho
      simp only [Tick.map, valuesIn, if_neg hcls]
      have hcol := more_collect ih (a.data.length + 1) a.data
      unfold universalContentO at hv ⊢
      split at hv
      · simp only [Tick.fst_bind, Tick.fst_free, Tick.fst_map] at hv
        obtain ⟨u, h1, h2⟩ := bind_eq_ok.1 hv
        obtain ⟨l, h3, rfl⟩ := Outcome.map_eq_ok.1 h2
        simp only [Tick.bind, Tick.free, h1, Tick.map, valuesInC, Nat.zero_add]
        exact hcol.2 l h3
      · simp only [Tick.fst_bind, Tick.fst_free, Tick.fst_map] at hv
        obtain ⟨u, h1, h2⟩ := bind_eq_ok.1 hv
        obtain ⟨l, h3, rfl⟩ := Outcome.map_eq_ok.1 h2
        simp only [Tick.bind, Tick.free, h1, Tick.map, valuesInC, Nat.zero_add]
        exact hcol.2 l h3
      · rename_i hs ht
        have := valuesInC_leaf hv hs ht
        simp [this]

/-- C143: a conversion is counted once for each value of universal class in the result that is no SEQUENCE and
no SET, however deep it lies. -/
theorem C143_conversions (D : Deps) (c d : Nat) (i rem : Bytes) (o : BerObject)
    (h : parseBerRecursive D d i = .ok (rem, o)) :
    (parseBerRecursiveO D (fun _ => c) d i).2 = (parseBerRecursiveO D (fun _ => 0) d i).2 + c * valuesIn o := by
  have h := (C143_same_results D (fun _ => 0) d 0 i).1.trans h
  unfold parseBerRecursiveO at h ⊢
  split at h
  · cases h
  · rename_i hd
    rw [if_neg hd, if_neg hd]
    simp only [Tick.fst_bind, Tick.fst_mapErr, Tick.fst_free] at h
    obtain ⟨r, h1, h⟩ := bind_eq_ok.1 h
    obtain ⟨o', h2, h⟩ := bind_eq_ok.1 h
    cases h
    obtain ⟨m1, m2⟩ := more_objectFromAny D c d r.2
    have h3 : (objectFromAnyO D (fun _ => 0) d r.2).1 = .ok o := mapErr_ok h2
    have h4 := m1 ▸ h3
    have h5 := m2 o h3
    simp only [Tick.bind, h1, Tick.mapErr, h3, h4, Outcome.mapErr, Tick.free]
    omega

/-- C143: the same for the functions for one type.  With DER the value of a BIT STRING is checked, not converted. -/
theorem C143_typed_conversions (D : Deps) (c t : Nat) (i rem : Bytes) (o : BerObject) :
    (parseBerWithTag D t i = .ok (rem, o) →
      (parseBerWithTagO D (fun _ => c) t i).2 = (parseBerWithTagO D (fun _ => 0) t i).2 + c * valuesInC o.content) ∧
    (parseDerWithTag D t i = .ok (rem, o) →
      (parseDerWithTagO D (fun _ => c) t i).2 = (parseDerWithTagO D (fun _ => 0) t i).2 +
        c * if t = Tag.bitString then 0 else valuesInC o.content) := by
  have body : ∀ (j : Bytes) (tag : Nat) (l : Length) (cons : Bool) (d : Nat) (s : Bytes × Content),
      (berReadElementContentAsO D (fun _ => 0) j tag l cons d).1 = .ok s →
      (berReadElementContentAsO D (fun _ => c) j tag l cons d).2 =
        (berReadElementContentAsO D (fun _ => 0) j tag l cons d).2 + c * valuesInC s.2 := by
    intro j tag l cons d s hs
    have go : ∀ (hd : Header), hd.cls = .universal →
        ((getObjectContentO d hd j).bind fun r =>
          ((objectFromAnyO D (fun _ => 0) d { header := hd, data := r.2 }).mapErr .error).bind fun o =>
            (Tick.free (.ok (r.1, o.content)) : Tick (NomErr BerError) (Bytes × Content))).1 = .ok s →
        ((getObjectContentO d hd j).bind fun r =>
          ((objectFromAnyO D (fun _ => c) d { header := hd, data := r.2 }).mapErr .error).bind fun o =>
            (Tick.free (.ok (r.1, o.content)) : Tick (NomErr BerError) (Bytes × Content))).2 =
        ((getObjectContentO d hd j).bind fun r =>
          ((objectFromAnyO D (fun _ => 0) d { header := hd, data := r.2 }).mapErr .error).bind fun o =>
            (Tick.free (.ok (r.1, o.content)) : Tick (NomErr BerError) (Bytes × Content))).2 + c * valuesInC s.2 := by
      intro hd hcls h
      simp only [Tick.fst_bind, Tick.fst_mapErr, Tick.fst_free] at h
      obtain ⟨r, h1, h⟩ := bind_eq_ok.1 h
      obtain ⟨o', h2, h⟩ := bind_eq_ok.1 h
      cases h
      obtain ⟨m1, m2⟩ := more_objectFromAny D c d { header := hd, data := r.2 }
      have h3 : (objectFromAnyO D (fun _ => 0) d { header := hd, data := r.2 }).1 = .ok o' := mapErr_ok h2
      have h4 := m1 ▸ h3
      have h5 := m2 o' h3
      have h6 : valuesIn o' = valuesInC o'.content := by
        rw [objectFromAnyO_fst] at h3
        have := objectFromAny_header h3
        obtain ⟨hd', c'⟩ := o'
        simp only [BerObject.header] at this
        subst this
        simp [valuesIn, hcls, BerObject.content]
      simp only [Tick.bind, h1, Tick.mapErr, h3, h4, Outcome.mapErr, Tick.free]
      rw [h5, h6]
      omega
    unfold berReadElementContentAsO at hs ⊢
    dsimp only at hs ⊢
    cases l with
    | definite n =>
      dsimp only at hs ⊢
      split at hs
      · cases hs
      · rename_i h1
        rw [if_neg h1]
        split at hs
        · cases hs
        · rename_i h2
          rw [if_neg h2, if_neg h1, if_neg h2]
          exact go _ rfl hs
    | indefinite => exact go _ rfl hs
  have ber : ∀ t, parseBerWithTag D t i = .ok (rem, o) →
      (parseBerWithTagO D (fun _ => c) t i).2 = (parseBerWithTagO D (fun _ => 0) t i).2 + c * valuesInC o.content := by
    intro t h
    have h := (C143_same_results D (fun _ => 0) 0 t i).2.1.trans h
    have h' := h
    rw [(C143_same_results D (fun _ => 0) 0 t i).2.1, ← (C143_same_results D (fun _ => c) 0 t i).2.1] at h'
    unfold parseBerWithTagO at h h' ⊢
    obtain ⟨r, h1, h2, h3⟩ := Tick.bind_ok h
    obtain ⟨u, h4, h5, h6⟩ := Tick.bind_ok h2
    obtain ⟨s, h7, h8, h9⟩ := Tick.bind_ok h5
    obtain ⟨r', k1, k2, k3⟩ := Tick.bind_ok h'
    obtain rfl : r = r' := by rw [h1] at k1; exact Outcome.ok.inj k1
    obtain ⟨u', k4, k5, k6⟩ := Tick.bind_ok k2
    obtain ⟨s', k7, k8, k9⟩ := Tick.bind_ok k5
    cases h8
    have := body _ _ _ _ _ _ h7
    rw [h3, h6, h9, k3, k6, k9, this]
    simp only [Tick.free, BerObject.content]
    omega
  refine ⟨ber t, fun h => ?_⟩
  have h0 := C143_der_checks D (fun _ => 0) t i rem o h
  have hc := C143_der_checks D (fun _ => c) t i rem o h
  split at h0
  · rename_i ht
    rw [if_pos ht] at hc ⊢
    obtain ⟨r, h1, h2⟩ := h0
    obtain ⟨r', h3, h4⟩ := hc
    rw [h1] at h3
    obtain rfl := Outcome.ok.inj h3
    rw [h2, h4]
    rfl
  · rename_i ht
    rw [if_neg ht] at hc ⊢
    have h := (C143_same_results D (fun _ => 0) 0 t i).2.2.2.trans h
    have hb : parseBerWithTag D t i = .ok (rem, o) := by
      rw [← (C143_same_results D (fun _ => 0) 0 t i).2.1]
      unfold parseDerWithTagO at h
      simp only [Tick.fst_bind, lookHeader_fst, Tick.fst_free] at h
      obtain ⟨r, h1, h⟩ := bind_eq_ok.1 h
      obtain ⟨u, h2, h⟩ := bind_eq_ok.1 h
      obtain ⟨s, h3, h⟩ := bind_eq_ok.1 h
      have ht' : r.2.tag = t := by
        rw [liftRes_eq_ok] at h2
        unfold Header.assertTag at h2
        split at h2
        · assumption
        · cases h2
      unfold derReadElementContentAsO at h3
      simp only [Tick.fst_bind, Tick.fst_free] at h3
      obtain ⟨l, h4, h5⟩ := bind_eq_ok.1 h3
      by_cases hl : r.1.length < l
      · rw [if_pos hl] at h5; cases h5
      rw [if_neg hl, ht', if_neg ht] at h5
      simp only [Tick.fst_bind, lookTwo_fst] at h5
      obtain ⟨v, h6, h7⟩ := bind_eq_ok.1 h5
      unfold parseBerWithTagO
      simp only [Tick.fst_bind, lookHeader_fst, Tick.fst_free, derHeader_ber h1, ok_bind, h2]
      rw [ht', h7]
      exact h
    rw [h0, hc, ber t hb]
    omega

/-- C143: the factor for the recursion limit is reached up to a constant.  `j` SEQUENCEs of indefinite length around `k`
NULLs are `2 * k + 4 * j` octets, and at least `j + 1` times as many as those of the NULLs are counted. -/
theorem C143_nested_octets (D : Deps) (leaf : Any → Nat) (k j d : Nat) (h1 : 1 ≤ j) (hj : j ≤ 49) (hd : j < d) :
    (Tests.nestedIndef k j).length = 2 * k + 4 * j ∧
    (∃ o, parseBerRecursive D d (Tests.nestedIndef k j) = .ok ([], o)) ∧
    (j + 1) * (2 * k) ≤ (parseBerRecursiveO D leaf d (Tests.nestedIndef k j)).2 := by
  obtain ⟨h2, ⟨o, h3⟩, h4⟩ := C78_nested_cost D k j d h1 hj hd
  have h5 := (C143_at_least D leaf d 0 _ _ _).1 h3
  rw [h4] at h5
  refine ⟨h2, ⟨o, h3⟩, Nat.le_trans ?_ h5⟩
  rw [Nat.mul_left_comm]
  exact Nat.mul_le_mul_left 2 (Nat.mul_le_mul_left (j + 1) (Nat.le_add_right k j))

example := C143_nested_octets Tests.D0 (fun _ => 0) 1000 49 50 (by decide) (by decide) (by decide)

/-! ## Examples -/

/-- One unit for each octet of a value and two besides. -/
def Tests.unitLeaf (a : Any) : Nat := a.data.length + 2

example : ∀ a, Tests.unitLeaf a ≤ 1 * (a.data.length + 2) := fun a => by simp [Tests.unitLeaf]

/-- A SEQUENCE with one INTEGER: two headers of two octets, and an INTEGER of one octet. -/
example : (parseBerRecursiveO Tests.D0 Tests.unitLeaf 50 [0x30, 3, 2, 1, 5]).2 = 7 := by decide +kernel

example := (C143_typed_conversions Tests.D0 7 16 [0x30, 3, 2, 1, 5] [] _).1 rfl
example := (C143_typed_conversions Tests.D0 7 16 [0x30, 3, 2, 1, 5] [] _).2 rfl
example := (C143_typed_conversions Tests.D0 7 3 [3, 2, 0, 5] [] _).2 rfl

example : ∃ o, parseBerRecursive Tests.D0 50 [0x30, 3, 2, 1, 5] = .ok ([], o) ∧ valuesIn o = 1 := ⟨_, rfl, rfl⟩

/-- With DER, an INTEGER of one octet: a header of two octets, two octets for the check, and the value. -/
example : (parseDerWithTagO Tests.D0 Tests.unitLeaf 2 [2, 1, 5]).2 = 7 := by decide +kernel

/-- The window is reached: a tag number in five octets and a length in 126. -/
example : (headerFromBer ([0x1f, 0x81, 0x81, 0x81, 0x81, 0x01, 0xfe] ++ List.replicate 126 0)).map
    (fun r => r.1.length) = .ok 0 := by decide +kernel

end Verif
