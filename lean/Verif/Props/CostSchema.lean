import Verif.CostSchema
import Verif.Props.Cost
import Verif.Props.Schema
/-!
# Number of header reads of composed parsers: C129
-/
namespace Verif
open Outcome Spec

variable {α β : Type}

/-! ## The counted functions give the same results -/

theorem convertErr_ber (x : Outcome (NomErr BerError) α) : convertErr (E := BerError) x = x := by
  cases x with
  | err e => cases e <;> rfl
  | _ => rfl

theorem liftResE_ber (x : Res α) : liftResE (E := BerError) x = liftRes x := rfl

theorem frameT_fst (R : Rules) (i : Bytes) : (frameT R i).1 = frame R i := by
  cases R with
  | ber =>
    simp only [frameT, frame, Tick.fst_bind, Tick.fst_read, convertErr_ber]
    congr 1; funext r
    cases r.2.length with
    | definite l => simp only [Tick.fst_free]
    | indefinite => simp only [getObjectContentT_fst, Tick.fst_free]
  | der =>
    simp only [frameT, frame, Tick.fst_bind, Tick.fst_read, convertErr_ber]
    congr 1; funext r
    cases r.2.length with
    | definite l => simp only [Tick.fst_free]
    | indefinite => simp only [Tick.fst_free]; rfl

theorem containerT_fst {R : Rules} {f : Bytes → Header → Tick (NomErr BerError) (Bytes × α)}
    {g : Bytes → Header → IRes BerError α} (hf : ∀ c h, (f c h).1 = g c h) (i : Bytes) :
    (containerT R f i).1 = container R g i := by
  simp only [containerT, container, Tick.fst_bind, frameT_fst, hf, Tick.fst_free]

theorem definedT_fst {R : Rules} {tag : Nat} {f : Ticker α} {g : Bytes → IRes BerError α} (hf : ∀ c, (f c).1 = g c)
    (i : Bytes) : (definedT R tag f i).1 = definedG R tag (fun c _ => g c) i :=
  containerT_fst (fun c h => by simp only [Tick.fst_bind, Tick.fst_free, hf, liftResE_ber]) i

theorem many0T_fst {p : Ticker α} {q : Bytes → IRes BerError α} (hp : ∀ c, (p c).1 = q c) (fuel : Nat) :
    ∀ i, (many0T p fuel i).1 = many0 q fuel i := by
  induction fuel with
  | zero => intro i; rfl
  | succ fuel ih =>
    intro i
    unfold many0T many0
    rw [hp i]
    cases q i with
    | ok r =>
      dsimp only
      split
      · rfl
      · rw [← ih]
    | err e => cases e <;> rfl
    | panic => rfl
    | diverge => rfl

theorem ofSubparserT_fst {f : Ticker α} {g : Bytes → IRes BerError α} (hf : ∀ c, (f c).1 = g c) (i : Bytes) :
    (ofSubparserT f i).1 = ofSubparser g i := by
  have h : ∀ c, (completeCutT f c).1 = complete (cut g) c := by
    intro c
    have : (fun j => (f j).1) = g := funext hf
    simp only [completeCutT, this]
  simp only [ofSubparserT, ofSubparser, allConsuming, Tick.fst_bind, many0T_fst h, Tick.fst_free]
  rfl

theorem mapT_fst {k : α → β} {f : Ticker α} {g : Bytes → IRes BerError α} (hf : ∀ c, (f c).1 = g c) (i : Bytes) :
    (mapT k f i).1 = mapRes k g i := by
  simp only [mapT, mapRes, Tick.fst_bind, hf, Tick.fst_free]

theorem optionalT_fst {f : Ticker BerObject} {g : Bytes → IRes BerError BerObject} (hf : ∀ c, (f c).1 = g c) (i : Bytes) :
    (optionalT f i).1 = parseOptional g i := by
  have : (fun j => (f j).1) = g := funext hf
  simp only [optionalT, this]

theorem explicitT_fst {R : Rules} {tag : Nat} {k : Header → BerObject → BerObject} {f : Ticker BerObject}
    {g : Bytes → IRes BerError BerObject} (hf : ∀ c, (f c).1 = g c) (i : Bytes) :
    (explicitT R tag k f i).1 = taggedExplicitG R tag (fun c h => g c >>? fun r => .ok (r.1, k h r.2)) i := by
  refine containerT_fst (fun c h => ?_) i
  split
  · rfl
  · simp only [Tick.fst_bind, Tick.fst_free, hf, liftResE_ber]

theorem implicitT_fst (D : Deps) (R : Rules) (tag type : Nat) (i : Bytes) :
    (implicitT D R tag type i).1 = (Schema.implicit tag type).run D R i := by
  cases R with
  | ber =>
    simp only [Schema.run, taggedImplicit, taggedImplicitG]
    refine containerT_fst (fun c h => ?_) i
    simp only [Tick.fst_bind, Tick.fst_free, liftResE_ber, berReadElementContentAsT_fst, parseBerContent]
  | der =>
    simp only [Schema.run, taggedImplicit, taggedImplicitG]
    refine containerT_fst (fun c h => ?_) i
    simp only [Tick.fst_bind, Tick.fst_free, liftResE_ber, derReadElementContentAsT_fst, parseDerContent]

theorem altT_fst {p : Nat → Ticker BerObject} {q : Nat → Bytes → IRes BerError BerObject}
    (hp : ∀ t c, (p t c).1 = q t c) (tags : List Nat) : ∀ tag i, (altT p tag tags i).1 = alt q tag tags i := by
  induction tags with
  | nil => intro tag i; rw [altT, alt, hp]
  | cons t ts ih =>
    intro tag i
    rw [altT, alt, hp]
    cases q tag i with
    | err e =>
      cases e with
      | error e => exact ih t i
      | _ => rfl
    | _ => rfl

mutual
theorem runT_fst (D : Deps) (R : Rules) : ∀ (s : Schema) (i : Bytes), (s.runT D R i).1 = s.run D R i
  | .any, i => by
    cases R
    · exact (C78_same_results D maxRecursion 0 i).1
    · exact (C78_same_results D maxRecursion 0 i).2.2.1
  | .typed tag, i => by
    cases R
    · exact (C78_same_results D maxRecursion tag i).2.1
    · exact (C78_same_results D maxRecursion tag i).2.2.2
  | .sequenceOf s, i => mapT_fst (definedT_fst (ofSubparserT_fst (runT_fst D R s))) i
  | .setOf s, i => mapT_fst (definedT_fst (ofSubparserT_fst (runT_fst D R s))) i
  | .sequence l, i => mapT_fst (definedT_fst (runAllT_fst D R l)) i
  | .set l, i => mapT_fst (definedT_fst (runAllT_fst D R l)) i
  | .explicit tag s, i => explicitT_fst (k := fun hdr o => .mk hdr (.tagged hdr.cls tag o)) (runT_fst D R s) i
  | .implicit tag type, i => implicitT_fst D R tag type i
  | .optional s, i => optionalT_fst (runT_fst D R s) i
  | .explicitOptional tag s, i =>
    optionalT_fst (explicitT_fst (k := fun hdr o => .mk hdr (.tagged hdr.cls hdr.tag o)) (runT_fst D R s)) i
  | .choice tag tags, i => by
    cases R
    · exact altT_fst (fun t c => (C78_same_results D maxRecursion t c).2.1) tags tag i
    · exact altT_fst (fun t c => (C78_same_results D maxRecursion t c).2.2.2) tags tag i
theorem runAllT_fst (D : Deps) (R : Rules) : ∀ (l : List Schema) (i : Bytes),
    (Schema.runAllT D R l i).1 = Schema.runAll D R l i
  | [], i => rfl
  | s :: l, i => by
    simp only [Schema.runAllT, Schema.runAll, Tick.fst_bind, runT_fst D R s, Tick.fst_free]
    congr 1; funext r
    rw [runAllT_fst D R l]
end
/-! ## Bounds -/

/-- Twice the number of header reads is at most `w` for each octet, with one octet more if nothing is read or the parser
fails; what is not read is not paid for. -/
def Paid (w : Nat) (i : Bytes) (x : Tick (NomErr BerError) (Bytes × α)) : Prop :=
  2 * x.2 ≤ w * (i.length + 1) ∧
  ∀ r, x.1 = .ok r → r.1.length < i.length → 2 * x.2 + w * r.1.length ≤ w * i.length

theorem getObjectContentT_free {d l : Nat} {h : Header} (hl : h.length = .definite l) (i : Bytes) :
    (getObjectContentT d h i).2 = 0 ∧
    ∀ r, (getObjectContentT d h i).1 = .ok r → r.1.length + l = i.length ∧ r.2.length ≤ l := by
  cases d with
  | zero => exact ⟨rfl, by intro r hr; cases hr⟩
  | succ d =>
    unfold getObjectContentT
    simp only [skipContentT, hl, Tick.bind, Tick.free]
    by_cases he : l = 0 ∧ h.tag = Tag.endOfContent
    · simp only [if_pos he]
      refine ⟨trivial, fun r hr => ?_⟩
      cases hr
      simp [he.1]
    · simp only [if_neg he, takeStreaming]
      by_cases hs : i.length < l
      · simp only [if_pos hs, err_bind]
        exact ⟨trivial, by intro r hr; cases hr⟩
      · simp only [if_neg hs, ok_bind]
        refine ⟨trivial, fun r hr => ?_⟩
        simp at hr
        subst hr
        simp only [List.length_drop, List.length_take]
        omega

theorem berReadElementContentAsT_definite (D : Deps) (i : Bytes) (tag l : Nat) (c : Bool) (d : Nat) :
    2 * (berReadElementContentAsT D i tag (.definite l) c d).2 ≤ d * min l i.length + 2 ∧
    ∀ r, (berReadElementContentAsT D i tag (.definite l) c d).1 = .ok r → r.1.length + l = i.length := by
  unfold berReadElementContentAsT
  dsimp only
  split
  · exact ⟨by simp [Tick.free], by intro r hr; cases hr⟩
  · split
    · exact ⟨by simp [Tick.free], by intro r hr; cases hr⟩
    · obtain ⟨h1, h2⟩ := getObjectContentT_free (d := d) (h := .new .universal c tag (.definite l)) rfl i
      unfold Tick.bind
      match hq : (getObjectContentT d (.new .universal c tag (.definite l)) i).1 with
      | .ok r =>
        obtain ⟨h3, h4⟩ := h2 r hq
        dsimp only
        rw [h1]
        have h5 := (within_objectFromAny D d ⟨.new .universal c tag (.definite l), r.2⟩).2
        have h6 := Nat.mul_le_mul_left d (show r.2.length ≤ min l i.length by omega)
        dsimp only at h5
        simp only [Tick.mapErr]
        match hq2 : (objectFromAnyT D d ⟨.new .universal c tag (.definite l), r.2⟩).1.mapErr NomErr.error with
        | .ok o =>
          dsimp only [Tick.free]
          exact ⟨by omega, by intro s hs; cases hs; exact h3⟩
        | .err _ | .panic | .diverge => exact ⟨by dsimp only; omega, by intro s hs; cases hs⟩
      | .err _ | .panic | .diverge =>
        dsimp only
        rw [h1]
        exact ⟨by omega, by intro r hr; cases hr⟩

theorem derReadContentBitstring_rem {i : Bytes} {l : Nat} {r : Bytes × Content}
    (h : derReadContentBitstring i l = .ok r) : r.1.length + l = i.length := by
  unfold derReadContentBitstring at h
  split at h
  · cases h
  · rename_i b i
    split at h
    · cases h
    · split at h
      · cases h
      · obtain ⟨s, h1, h2⟩ := bind_eq_ok.1 h
        have h3 : r.1 = s.1 := by
          split at h2
          · split at h2
            · cases h2
            · split at h2
              · cases h2; rfl
              · cases h2
          · cases h2; rfl
        unfold takeStreaming at h1
        split at h1
        · cases h1
        · cases h1
          rw [h3]
          simp only [List.length_drop, List.length_cons]
          omega

theorem derReadElementContentAsT_definite (D : Deps) (i : Bytes) (tag l : Nat) (c : Bool) (d : Nat) :
    2 * (derReadElementContentAsT D i tag (.definite l) c d).2 ≤ d * min l i.length + 2 ∧
    ∀ r, (derReadElementContentAsT D i tag (.definite l) c d).1 = .ok r → r.1.length + l = i.length := by
  unfold derReadElementContentAsT
  simp only [Length.definite?, liftRes, Outcome.mapErr, Tick.bind, Tick.free]
  split
  · exact ⟨by simp, by intro r hr; cases hr⟩
  · rename_i hs
    split
    · refine ⟨by simp, fun r hr => ?_⟩
      dsimp only at hr
      split at hr
      · cases hr
      · exact derReadContentBitstring_rem hr
    · obtain ⟨h1, h2⟩ := berReadElementContentAsT_definite D i tag l c d
      match derCheck i tag l c with
      | .ok _ => exact ⟨by dsimp only; omega, h2⟩
      | .err _ | .panic | .diverge => exact ⟨by dsimp only; omega, by intro r hr; cases hr⟩

/-- A header read and then contents of at most `l` octets. -/
theorem paid_content {i j : Bytes} {l n : Nat} (h1 : j.length + 2 ≤ i.length) (h2 : 2 * n ≤ maxRecursion * min l j.length + 2)
    (y : Outcome (NomErr BerError) (Bytes × α))
    (hy : ∀ r, y = .ok r → r.1.length + l = j.length) : Paid 51 i (y, 1 + n) := by
  simp only [maxRecursion] at h2
  refine ⟨by dsimp only; omega, fun r hr _ => ?_⟩
  have := hy r hr
  dsimp only
  omega

theorem paid_ber_any (D : Deps) (i : Bytes) : Paid 51 i (parseBerRecursiveT D maxRecursion i) := by
  obtain ⟨h1, h2⟩ := C78_parse_ber D maxRecursion i
  simp only [maxRecursion] at h1 h2
  refine ⟨by simp only [maxRecursion]; omega, fun r hr hlt => ?_⟩
  have h3 := h2 r.1 r.2 (by rw [← (C78_same_results D 50 0 i).1]; exact hr)
  simp only [maxRecursion]
  omega

theorem paid_ber_typed (D : Deps) (t : Nat) (i : Bytes) : Paid 51 i (parseBerWithTagT D t i) := by
  have key : Within (parseBerWithTagT D t i) (51 * i.length) fun r => 51 * r.1.length := by
    refine Within.bind (f := fun r => 51 * r.1.length)
      ((within_headerFromBer i).frame (50 * i.length) ?_ (by omega)) fun r _ => ?_
    · intro r hr
      have := headerFromBer_pos (rem := r.1) (h := r.2) hr
      omega
    · refine Within.bind (f := fun _ => 51 * r.1.length) (.free (by simp)) fun _ _ => ?_
      exact Within.bind (f := fun s => 51 * s.1.length)
        ((within_berReadElementContentAs D r.1 _ _ _ _).frame 0 (by simp [maxRecursion]) (by simp [maxRecursion]))
        fun s _ => .free fun a ha => by cases ha; exact Nat.le_refl _
  refine ⟨?_, fun r hr _ => key.1 r hr⟩
  have := key.2
  omega

theorem paid_der_any (D : Deps) (i : Bytes) : Paid 51 i (parseDerRecursiveT D maxRecursion i) := by
  unfold parseDerRecursiveT Tick.bind
  match hq : (Tick.read (headerFromDer i)).1 with
  | .err _ | .panic | .diverge => exact ⟨by simp only [Tick.read]; omega, by intro r hr; cases hr⟩
  | .ok r =>
    have h1 := (within_headerFromDer i).1 r hq
    simp only [Tick.read] at h1
    obtain ⟨hb, -, H⟩ := headerFromDer_iff.1 (show headerFromDer i = .ok (r.1, r.2) from hq)
    have hne := H.definite
    dsimp only [Tick.read]
    cases hl : r.2.length with
    | indefinite => exact absurd hl hne
    | definite l =>
      dsimp only
      split
      · exact ⟨by dsimp only [Tick.free]; omega, by intro s hs; cases hs⟩
      · have hu : (derUnknownT r.1 r.2 maxRecursion).2 = 0 ∧
            ∀ s, (derUnknownT r.1 r.2 maxRecursion).1 = .ok s → s.1.length + l = r.1.length := by
          obtain ⟨g1, g2⟩ := getObjectContentT_free (d := maxRecursion) hl r.1
          unfold derUnknownT Tick.bind
          match hq2 : (getObjectContentT maxRecursion r.2 r.1).1 with
          | .ok s => exact ⟨by dsimp only [Tick.free]; omega, by intro v hv; cases hv; exact (g2 s hq2).1⟩
          | .err _ | .panic | .diverge => exact ⟨by dsimp only; omega, by intro v hv; cases hv⟩
        obtain ⟨a1, a2⟩ := derReadElementContentAsT_definite D r.1 r.2.tag l r.2.constructed maxRecursion
        refine paid_content (j := r.1) (l := l) (by omega) ?_ _ ?_
        · unfold derReadElementContentRecursiveT
          rw [hl]
          split
          · omega
          · dsimp only
            split <;> dsimp only <;> omega
        · unfold derReadElementContentRecursiveT
          rw [hl]
          split
          · exact hu.2
          · dsimp only
            split
            · intro s hs; cases hs; exact a2 _ ‹_›
            · exact hu.2
            all_goals intro s hs; cases hs

theorem paid_der_typed (D : Deps) (t : Nat) (i : Bytes) : Paid 51 i (parseDerWithTagT D t i) := by
  unfold parseDerWithTagT Tick.bind
  match hq : (Tick.read (headerFromDer i)).1 with
  | .err _ | .panic | .diverge => exact ⟨by simp only [Tick.read]; omega, by intro r hr; cases hr⟩
  | .ok r =>
    have h1 := (within_headerFromDer i).1 r hq
    simp only [Tick.read] at h1
    obtain ⟨hb, -, H⟩ := headerFromDer_iff.1 (show headerFromDer i = .ok (r.1, r.2) from hq)
    have hne := H.definite
    cases hl : r.2.length with
    | indefinite => exact absurd hl hne
    | definite l =>
      obtain ⟨a1, a2⟩ := derReadElementContentAsT_definite D r.1 r.2.tag l r.2.constructed maxRecursion
      rw [← hl] at a1 a2
      refine paid_content (j := r.1) (l := l) (by omega) ?_ _ ?_
      · dsimp only [Tick.free]
        split
        · dsimp only
          split <;> dsimp only <;> omega
        all_goals dsimp only; omega
      · dsimp only [Tick.free]
        split
        · dsimp only
          split
          · intro s hs; cases hs; exact a2 _ ‹_›
          all_goals intro s hs; cases hs
        all_goals intro s hs; cases hs

theorem frame_data {R : Rules} {i : Bytes} {s : Bytes × (Header × Bytes)}
    (h : (frame R i : IRes BerError (Header × Bytes)) = .ok s) : s.2.2.length + s.1.length + 2 ≤ i.length := by
  have h := frame_iff.1 (show (frame R i : IRes BerError (Header × Bytes)) = .ok (s.1, (s.2.1, s.2.2)) from h)
  cases R with
  | ber =>
    obtain ⟨e, h1, hF⟩ := h
    have h2 := framed_length hF
    have h1 := congrArg List.length h1
    rw [List.length_append] at h1
    omega
  | der =>
    obtain ⟨hb, h1, hH, -⟩ := h
    have h2 := berHeader_nonempty hH.toBerHeader
    have h1 := congrArg List.length h1
    rw [List.length_append, List.length_append] at h1
    omega

theorem within_frame (R : Rules) (i : Bytes) : Within (frameT R i) i.length fun s => s.1.length := by
  have take : ∀ l (j : Bytes), Within (Tick.free (takeComplete l j : IRes BerError Bytes)) j.length fun s => s.1.length := by
    intro l j
    refine .free fun a ha => ?_
    unfold takeComplete at ha
    split at ha
    · cases ha
    · cases ha; simp
  cases R with
  | ber =>
    refine (within_headerFromBer i).bind fun r _ => Within.bind (f := fun s => s.1.length) ?_
      fun s _ => .free fun a ha => by cases ha; exact Nat.le_refl _
    cases r.2.length with
    | definite l => exact take l r.1
    | indefinite => exact within_getObjectContent _ _ _
  | der =>
    refine (within_headerFromDer i).bind fun r _ => Within.bind (f := fun s => s.1.length) ?_
      fun s _ => .free fun a ha => by cases ha; exact Nat.le_refl _
    cases r.2.length with
    | definite l => exact take l r.1
    | indefinite => exact .free (by simp)

/-- A container around a parser of the contents. -/
theorem paid_container (R : Rules) {w : Nat} {f : Bytes → Header → Tick (NomErr BerError) (Bytes × α)}
    (hf : ∀ c h, 2 * (f c h).2 ≤ w * (c.length + 1)) (i : Bytes) : Paid (w + 2) i (containerT R f i) := by
  unfold containerT
  obtain ⟨h1, h2⟩ := within_frame R i
  unfold Tick.bind
  have e : (w + 2) * (i.length + 1) = w * (i.length + 1) + 2 * i.length + 2 := by rw [Nat.add_mul]; omega
  match hq : (frameT R i).1 with
  | .err _ | .panic | .diverge => exact ⟨by dsimp only; omega, by intro r hr; cases hr⟩
  | .ok s =>
    have h3 := h1 s hq
    have h4 := frame_data (by rw [← frameT_fst]; exact hq)
    have h5 := hf s.2.2 s.2.1
    have h6 := Nat.mul_le_mul_left w (show s.2.2.length + 1 + s.1.length ≤ i.length by omega)
    rw [Nat.mul_add] at h6
    have e2 : (w + 2) * s.1.length = w * s.1.length + 2 * s.1.length := by rw [Nat.add_mul]
    have e3 : (w + 2) * i.length = w * i.length + 2 * i.length := by rw [Nat.add_mul]
    have e4 : (w + 2) * (i.length + 1) = (w + 2) * i.length + w + 2 := by rw [Nat.mul_add]; omega
    dsimp only
    match hq2 : (f s.2.2 s.2.1).1 with
    | .err _ | .panic | .diverge => exact ⟨by dsimp only; omega, by intro r hr; cases hr⟩
    | .ok v => exact ⟨by dsimp only [Tick.free]; omega, by
        intro r hr _
        cases hr
        dsimp only [Tick.free] at h3 ⊢
        omega⟩

theorem count_bind_free {x : Tick (NomErr BerError) α} {g : α → Outcome (NomErr BerError) β} :
    (x.bind fun a => .free (g a)).2 = x.2 := by
  unfold Tick.bind
  cases x.1 <;> rfl

theorem count_bind {ε : Type} {x : Tick ε α} {g : α → Tick ε β} {a b : Nat} (hx : 2 * x.2 ≤ a)
    (hg : ∀ r, x.1 = .ok r → 2 * (g r).2 ≤ b) : 2 * (x.bind g).2 ≤ a + b := by
  unfold Tick.bind
  match hq : x.1 with
  | .ok r => have := hg r hq; dsimp only; omega
  | .err _ | .panic | .diverge => dsimp only; omega

theorem count_free_bind {ε : Type} {x : Outcome ε α} {g : α → Tick ε β} {n : Nat} (h : ∀ a, 2 * (g a).2 ≤ n) :
    2 * ((Tick.free x).bind g).2 ≤ n := by
  unfold Tick.bind Tick.free
  cases x with
  | ok a => have := h a; dsimp only; omega
  | _ => dsimp only; omega

theorem paid_map {k : α → β} {f : Ticker α} {w : Nat} (h : ∀ i, Paid w i (f i)) (i : Bytes) : Paid w i (mapT k f i) := by
  obtain ⟨h1, h2⟩ := h i
  refine ⟨by rw [mapT, count_bind_free]; exact h1, fun r hr hlt => ?_⟩
  rw [mapT, count_bind_free]
  rw [mapT, Tick.fst_bind] at hr
  obtain ⟨s, h3, h4⟩ := bind_eq_ok.1 hr
  cases h4
  exact h2 s h3 hlt

theorem paid_defined (R : Rules) (tag : Nat) {f : Ticker α} {w : Nat} (hf : ∀ c, 2 * (f c).2 ≤ w * (c.length + 1))
    (i : Bytes) : Paid (w + 2) i (definedT R tag f i) :=
  paid_container R (fun c _ => count_free_bind fun _ => hf c) i

theorem paid_explicit (R : Rules) (tag : Nat) (k : Header → BerObject → BerObject) {f : Ticker BerObject} {w : Nat}
    (hf : ∀ c, 2 * (f c).2 ≤ w * (c.length + 1)) (i : Bytes) : Paid (w + 2) i (explicitT R tag k f i) := by
  refine paid_container R (fun c h => ?_) i
  split
  · simp [Tick.free]
  · exact count_free_bind fun _ => count_free_bind fun _ => by rw [count_bind_free]; exact hf c

theorem paid_implicit (D : Deps) (R : Rules) (tag type : Nat) (i : Bytes) : Paid 53 i (implicitT D R tag type i) := by
  refine paid_container R (w := 51) (fun c h => ?_) i
  refine count_free_bind fun _ => ?_
  rw [count_bind_free]
  cases R with
  | ber =>
    have := (within_berReadElementContentAs D c type h.length h.constructed maxRecursion).2
    simp only [maxRecursion] at this ⊢
    omega
  | der =>
    have := (derReadElementContentAs_count D c type h.length h.constructed maxRecursion).2
    simp only [maxRecursion] at this ⊢
    omega

theorem paid_optional {f : Ticker BerObject} {w : Nat} (h : ∀ i, Paid w i (f i)) (i : Bytes) :
    Paid w i (optionalT f i) := by
  obtain ⟨h1, h2⟩ := h i
  refine ⟨h1, fun r hr hlt => ?_⟩
  dsimp only [optionalT, parseOptional] at hr ⊢
  split at hr
  · rename_i s hs
    cases hr
    exact h2 s hs hlt
  · cases hr; exact absurd hlt (by simp)
  · cases hr
  · cases hr

theorem count_many0 {p : Ticker α} {w : Nat} (hp : ∀ i, Paid w i (p i))
    (hs : ∀ i r, (p i).1 = .ok r → r.1.length ≤ i.length) (fuel : Nat) :
    ∀ i, 2 * (many0T p fuel i).2 ≤ w * (i.length + 1) := by
  induction fuel with
  | zero => intro i; simp [many0T, Tick.free]
  | succ fuel ih =>
    intro i
    obtain ⟨h1, h2⟩ := hp i
    unfold many0T
    split
    all_goals dsimp only
    · exact h1
    · exact h1
    · exact h1
    · exact h1
    · rename_i r hr
      split
      · exact h1
      · rename_i hne
        have h3 := h2 r hr (by have := hs i r hr; omega)
        have h4 := ih r.1
        rw [Nat.mul_add] at h4
        have h5 := Nat.mul_add w i.length 1
        omega

theorem count_ofSubparser {f : Ticker α} {w : Nat} (hf : ∀ i, Paid w i (f i))
    (hs : ∀ i r, (f i).1 = .ok r → r.1.length ≤ i.length) (c : Bytes) :
    2 * (ofSubparserT f c).2 ≤ w * (c.length + 1) := by
  have ok : ∀ i r, (completeCutT f i).1 = .ok r → (f i).1 = .ok r := by
    intro i r hr
    simp only [completeCutT, complete, cut] at hr
    cases hq : (f i).1 with
    | ok s => rw [hq] at hr; exact hr
    | err e => rw [hq] at hr; cases e <;> cases hr
    | panic => rw [hq] at hr; cases hr
    | diverge => rw [hq] at hr; cases hr
  unfold ofSubparserT
  rw [count_bind_free]
  exact count_many0 (p := completeCutT f) (fun i => ⟨(hf i).1, fun r hr => (hf i).2 r (ok i r hr)⟩) (fun i r hr => hs i r (ok i r hr)) _ c

theorem alt_mem {p : Nat → Bytes → IRes BerError BerObject} {i : Bytes} {r : Bytes × BerObject} (tags : List Nat) :
    ∀ tag, alt p tag tags i = .ok r → ∃ t, p t i = .ok r := by
  induction tags with
  | nil => intro tag h; exact ⟨tag, h⟩
  | cons t ts ih =>
    intro tag h
    rw [alt] at h
    split at h
    · exact ih t h
    · exact ⟨tag, h⟩

theorem paid_alt {p : Nat → Ticker BerObject} {i : Bytes} (hp : ∀ t, Paid 51 i (p t i))
    (hx : ∀ t t' e r, (p t i).1 = .err (.error e) → (p t' i).1 = .ok r → (p t i).2 ≤ 1) (tags : List Nat) :
    ∀ tag, Paid (51 * (tags.length + 1)) i (altT p tag tags i) := by
  induction tags with
  | nil => intro tag; exact hp tag
  | cons t ts ih =>
    intro tag
    obtain ⟨h1, h2⟩ := hp tag
    obtain ⟨h3, h4⟩ := ih t
    have e : ∀ n, 51 * ((t :: ts).length + 1) * n = 51 * n + 51 * (ts.length + 1) * n := by
      intro n
      rw [List.length_cons, Nat.mul_add 51 (ts.length + 1), Nat.add_mul]
      omega
    rw [altT]
    split
    · rename_i x hq
      refine ⟨by dsimp only; rw [e]; omega, fun r hr hlt => ?_⟩
      have h5 := h4 r hr hlt
      obtain ⟨t', h6⟩ := alt_mem (p := fun t i => (p t i).1) ts t
        (by rw [← altT_fst (p := p) fun _ _ => rfl]; exact hr)
      have h7 := hx tag t' _ r hq h6
      dsimp only
      rw [e, e]
      omega
    · refine ⟨by dsimp only; rw [e]; omega, fun r hr hlt => ?_⟩
      have h5 := h2 r hr hlt
      have h6 := Nat.mul_le_mul_left (51 * (ts.length + 1)) (Nat.le_of_lt hlt)
      dsimp only
      rw [e, e]
      omega

theorem alt_other_ber (D : Deps) (i : Bytes) (t t' : Nat) (e : BerError) (r : Bytes × BerObject)
    (h : (parseBerWithTagT D t i).1 = .err (.error e)) (h' : (parseBerWithTagT D t' i).1 = .ok r) :
    (parseBerWithTagT D t i).2 ≤ 1 := by
  by_cases ht : t = t'
  · subst ht; rw [h] at h'; cases h'
  · unfold parseBerWithTagT at h' ⊢
    rw [Tick.fst_bind] at h'
    obtain ⟨s, h1, h2⟩ := bind_eq_ok.1 h'
    rw [Tick.fst_bind] at h2
    obtain ⟨u, h3, -⟩ := bind_eq_ok.1 h2
    have h4 : s.2.tag = t' := by
      unfold Header.assertTag at h3
      by_cases hc : s.2.tag = t'
      · exact hc
      · simp [hc, Tick.free, liftRes, Outcome.mapErr] at h3
    have h5 : liftRes (s.2.assertTag t) = .err (.error (.unexpectedTag (some t) s.2.tag)) := by
      unfold Header.assertTag
      have : s.2.tag ≠ t := by rw [h4]; exact fun hc => ht hc.symm
      simp [this, liftRes, Outcome.mapErr]
    have h1 : headerFromBer i = .ok s := h1
    simp [Tick.bind, Tick.read, Tick.free, h1, h5]

theorem alt_other_der (D : Deps) (i : Bytes) (t t' : Nat) (e : BerError) (r : Bytes × BerObject)
    (h : (parseDerWithTagT D t i).1 = .err (.error e)) (h' : (parseDerWithTagT D t' i).1 = .ok r) :
    (parseDerWithTagT D t i).2 ≤ 1 := by
  by_cases ht : t = t'
  · subst ht; rw [h] at h'; cases h'
  · unfold parseDerWithTagT at h' ⊢
    rw [Tick.fst_bind] at h'
    obtain ⟨s, h1, h2⟩ := bind_eq_ok.1 h'
    rw [Tick.fst_bind] at h2
    obtain ⟨u, h3, -⟩ := bind_eq_ok.1 h2
    have h4 : s.2.tag = t' := by
      unfold Header.assertTag at h3
      by_cases hc : s.2.tag = t'
      · exact hc
      · simp [hc, Tick.free, liftRes, Outcome.mapErr] at h3
    have h5 : liftRes (s.2.assertTag t) = .err (.error (.unexpectedTag (some t) s.2.tag)) := by
      unfold Header.assertTag
      have : s.2.tag ≠ t := by rw [h4]; exact fun hc => ht hc.symm
      simp [this, liftRes, Outcome.mapErr]
    have h1 : headerFromDer i = .ok s := h1
    simp [Tick.bind, Tick.read, Tick.free, h1, h5]

mutual
/-- The number of parsers in a composition; an alternative of a choice counts as one. -/
def Spec.parts : Schema → Nat
  | .any => 1
  | .typed _ => 1
  | .sequenceOf s => parts s + 1
  | .setOf s => parts s + 1
  | .sequence l => partsAll l + 1
  | .set l => partsAll l + 1
  | .explicit _ s => parts s + 1
  | .implicit _ _ => 2
  | .optional s => parts s + 1
  | .explicitOptional _ s => parts s + 2
  | .choice _ tags => tags.length + 1
/-- The number of parsers in a list of components. -/
def Spec.partsAll : List Schema → Nat
  | [] => 0
  | s :: l => parts s + partsAll l
end

theorem Paid.mono {w w' : Nat} {i : Bytes} {x : Tick (NomErr BerError) (Bytes × α)} (h : Paid w i x) (hw : w ≤ w') :
    Paid w' i x := by
  obtain ⟨h1, h2⟩ := h
  refine ⟨Nat.le_trans h1 (Nat.mul_le_mul_right _ hw), fun r hr hlt => ?_⟩
  have h3 := h2 r hr hlt
  have h4 := Nat.mul_le_mul_left (w' - w) (Nat.le_of_lt hlt)
  rw [Nat.sub_mul, Nat.sub_mul] at h4
  have h5 := Nat.mul_le_mul_right r.1.length hw
  have h6 := Nat.mul_le_mul_right i.length hw
  omega

theorem shorter (D : Deps) (R : Rules) (s : Schema) (i : Bytes) (r : Bytes × BerObject)
    (h : (s.runT D R i).1 = .ok r) : r.1.length ≤ i.length := by
  rw [runT_fst] at h
  obtain ⟨c, h1, -⟩ := C97_suffix D R s i r.1 r.2 h
  rw [h1, List.length_append]
  omega

mutual
theorem paid_run (D : Deps) (R : Rules) : ∀ (s : Schema) (i : Bytes), Paid (51 * parts s) i (s.runT D R i)
  | .any, i => by
    cases R
    · exact paid_ber_any D i
    · exact paid_der_any D i
  | .typed t, i => by
    cases R
    · exact paid_ber_typed D t i
    · exact paid_der_typed D t i
  | .sequenceOf s, i =>
    (paid_map (paid_defined R _ (count_ofSubparser (paid_run D R s) (shorter D R s))) i).mono (by rw [parts]; omega)
  | .setOf s, i =>
    (paid_map (paid_defined R _ (count_ofSubparser (paid_run D R s) (shorter D R s))) i).mono (by rw [parts]; omega)
  | .sequence l, i => (paid_map (paid_defined R _ (count_runAll D R l)) i).mono (by rw [parts]; omega)
  | .set l, i => (paid_map (paid_defined R _ (count_runAll D R l)) i).mono (by rw [parts]; omega)
  | .explicit t s, i => (paid_explicit R t _ (fun c => (paid_run D R s c).1) i).mono (by rw [parts]; omega)
  | .implicit t y, i => (paid_implicit D R t y i).mono (by rw [parts]; omega)
  | .optional s, i => (paid_optional (paid_run D R s) i).mono (by rw [parts]; omega)
  | .explicitOptional t s, i =>
    (paid_optional (paid_explicit .ber t _ fun c => (paid_run D R s c).1) i).mono (by rw [parts]; omega)
  | .choice t ts, i => by
    cases R
    · exact paid_alt (fun t => paid_ber_typed D t i) (alt_other_ber D i) ts t
    · exact paid_alt (fun t => paid_der_typed D t i) (alt_other_der D i) ts t
theorem count_runAll (D : Deps) (R : Rules) : ∀ (l : List Schema) (i : Bytes),
    2 * (Schema.runAllT D R l i).2 ≤ 51 * partsAll l * (i.length + 1)
  | [], i => by simp [Schema.runAllT, Tick.free]
  | s :: l, i => by
    have h1 := (paid_run D R s i).1
    have e : 51 * partsAll (s :: l) * (i.length + 1) =
        51 * parts s * (i.length + 1) + 51 * partsAll l * (i.length + 1) := by
      rw [partsAll, Nat.mul_add 51, Nat.add_mul]
    rw [e, Schema.runAllT]
    refine count_bind h1 fun r hq => ?_
    rw [count_bind_free]
    exact Nat.le_trans (count_runAll D R l r.1)
      (Nat.mul_le_mul_left (51 * partsAll l) (Nat.succ_le_succ (shorter D R s i r hq)))
end

/-! ## C129 -/

/-- C129: counting does not change the results. -/
theorem C129_same_results (D : Deps) (R : Rules) (s : Schema) (i : Bytes) : (s.runT D R i).1 = s.run D R i :=
  runT_fst D R s i

/-- C129: a composed parser reads at most 25.5 headers for each of its parts and each octet of the input (and one octet
more), whether it succeeds or not. -/
theorem C129_linear (D : Deps) (R : Rules) (s : Schema) (i : Bytes) :
    2 * (s.runT D R i).2 ≤ 51 * parts s * (i.length + 1) :=
  (paid_run D R s i).1

/-- C129: if it succeeds and reads something, only the octets that are read count, not those that follow. -/
theorem C129_consumed (D : Deps) (R : Rules) (s : Schema) (i e rem : Bytes) (o : BerObject)
    (h : s.run D R i = .ok (rem, o)) (he : i = e ++ rem) (hne : e ≠ []) :
    2 * (s.runT D R i).2 ≤ 51 * parts s * e.length := by
  have hl : i.length = e.length + rem.length := by rw [he, List.length_append]
  have hp := List.length_pos_iff.2 hne
  have h1 := (paid_run D R s i).2 (rem, o) (by rw [runT_fst]; exact h) (by dsimp only; omega)
  rw [hl, Nat.mul_add (51 * parts s)] at h1
  dsimp only at h1
  omega

example := C129_consumed Tests.D0 .ber (.sequenceOf (.choice 5 [1])) [0x30, 0x05, 0x05, 0x00, 0x01, 0x01, 0xff, 9]
  [0x30, 0x05, 0x05, 0x00, 0x01, 0x01, 0xff] [9] _ rfl rfl (by simp)

open Tests

theorem frameT_nested (n j : Nat) (hj : j ≤ 48) (t : Bytes) :
    frameT .ber (nestedIndef n (j + 1) ++ t) = (.ok (t, (hdrSeqIndef, nestedIndef n j)), n + 2 + 2 * j) := by
  have h := anyFromBer_nested n j hj t
  have h3 : nestedIndef n (j + 1) ++ t = 0x30 :: 0x80 :: (nestedIndef n j ++ 0x00 :: 0x00 :: t) := by
    simp [nestedIndef]
  rw [h3] at h ⊢
  simp only [anyFromBerT, frameT, header_seq] at h ⊢
  have hlen : hdrSeqIndef.length = .indefinite := rfl
  dsimp only [Tick.read, Tick.bind] at h ⊢
  rw [hlen]
  dsimp only
  match hq : (getObjectContentT maxRecursion hdrSeqIndef (nestedIndef n j ++ 0x00 :: 0x00 :: t)) with
  | (.ok s, c) =>
    rw [hq] at h
    simp only [Tick.free, Prod.mk.injEq, Outcome.ok.injEq, Any.mk.injEq, true_and] at h ⊢
    obtain ⟨⟨h1, h2⟩, h4⟩ := h
    exact ⟨⟨h1, h2⟩, h4⟩
  | (.err _, c) | (.panic, c) | (.diverge, c) => rw [hq] at h; simp at h

/-- C129: the factor for the parts is real.  A SEQUENCE with `k` optional components that are all absent, given a
component of indefinite length with `n` NULLs in it (the input has `2 * n + 8` octets), reads `n + 2` headers for each
of the `k` components: every attempt looks for the end of the element before it looks at the tag. -/
theorem C129_optional_reads (D : Deps) (k n : Nat) :
    (nestedIndef n 2).length = 2 * n + 8 ∧
    (Schema.sequence (List.replicate k (.optional (.explicit 0 .any)))).runT D .ber (nestedIndef n 2) =
      (.ok ([], .fromSeq (List.replicate k (.fromObj .optionalNone))), n + 4 + k * (n + 2)) := by
  refine ⟨by rw [nestedIndef_length], ?_⟩
  have one : (Schema.optional (.explicit 0 .any)).runT D .ber (nestedIndef n 1) =
      (.ok (nestedIndef n 1, .fromObj .optionalNone), n + 2) := by
    have h := frameT_nested n 0 (by omega) []
    rw [List.append_nil] at h
    simp only [Schema.runT, optionalT, parseOptional, explicitT, containerT, h, Tick.bind]
    rfl
  have all : ∀ k, Schema.runAllT D .ber (List.replicate k (.optional (.explicit 0 .any))) (nestedIndef n 1) =
      (.ok (nestedIndef n 1, List.replicate k (.fromObj .optionalNone)), k * (n + 2)) := by
    intro k
    induction k with
    | zero => simp [Schema.runAllT, Tick.free]
    | succ k ih =>
      rw [List.replicate_succ, Schema.runAllT]
      simp only [one, ih, Tick.bind, Tick.free, List.replicate_succ]
      rw [Nat.add_mul, Nat.one_mul, Nat.add_comm]
      rfl
  have h := frameT_nested n 1 (by omega) []
  rw [List.append_nil] at h
  rw [Schema.runT]
  have htag : liftRes (hdrSeqIndef.assertTag Tag.sequence) = .ok () := rfl
  simp only [mapT, definedT, containerT, h, Tick.bind, all, htag, Tick.free, Nat.zero_add, Nat.add_zero]

/-- C129 is not vacuous: a SEQUENCE OF choices on two items. -/
example : (Schema.sequenceOf (.choice 5 [1])).runT Tests.D0 .ber [0x30, 0x05, 0x05, 0x00, 0x01, 0x01, 0xff] =
    (.ok ([], .fromSeq [.mk ⟨.universal, false, 5, .definite 0, some [5]⟩ .null,
      .mk ⟨.universal, false, 1, .definite 1, some [1]⟩ (.boolean true)]), 5) := by rfl

end Verif
