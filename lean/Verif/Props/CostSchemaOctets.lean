import Verif.CostSchemaOctets
import Verif.Props.CostSchema
import Verif.Props.CostOctets
import Verif.Props.CostBelow
/-!
# Number of octets looked at by composed parsers: C144
-/
namespace Verif
open Outcome Spec

variable {α β : Type}

/-! ## The counted functions give the same results -/

theorem frameO_fst (R : Rules) (i : Bytes) : (frameO R i).1 = frame R i := by
  cases R with
  | ber =>
    simp only [frameO, frame, Tick.fst_bind, lookHeader_fst, convertErr_ber]
    congr 1; funext r
    cases r.2.length with
    | definite l => simp only [Tick.fst_free]
    | indefinite => simp only [getObjectContentO_fst, Tick.fst_free]
  | der =>
    simp only [frameO, frame, Tick.fst_bind, lookHeader_fst, convertErr_ber]
    congr 1; funext r
    cases r.2.length with
    | definite l => simp only [Tick.fst_free]
    | indefinite => simp only [Tick.fst_free]; rfl

theorem containerO_fst {R : Rules} {f : Bytes → Header → Tick (NomErr BerError) (Bytes × α)}
    {g : Bytes → Header → IRes BerError α} (hf : ∀ c h, (f c h).1 = g c h) (i : Bytes) :
    (containerO R f i).1 = container R g i := by
  simp only [containerO, container, Tick.fst_bind, frameO_fst, hf, Tick.fst_free]

theorem definedO_fst {R : Rules} {tag : Nat} {f : Ticker α} {g : Bytes → IRes BerError α} (hf : ∀ c, (f c).1 = g c)
    (i : Bytes) : (definedO R tag f i).1 = definedG R tag (fun c _ => g c) i :=
  containerO_fst (fun c h => by simp only [Tick.fst_bind, Tick.fst_free, hf, liftResE_ber]) i

theorem explicitO_fst {R : Rules} {tag : Nat} {k : Header → BerObject → BerObject} {f : Ticker BerObject}
    {g : Bytes → IRes BerError BerObject} (hf : ∀ c, (f c).1 = g c) (i : Bytes) :
    (explicitO R tag k f i).1 = taggedExplicitG R tag (fun c h => g c >>? fun r => .ok (r.1, k h r.2)) i := by
  refine containerO_fst (fun c h => ?_) i
  split
  · rfl
  · simp only [Tick.fst_bind, Tick.fst_free, hf, liftResE_ber]

theorem implicitO_fst (D : Deps) (leaf : Any → Nat) (R : Rules) (tag type : Nat) (i : Bytes) :
    (implicitO D leaf R tag type i).1 = (Schema.implicit tag type).run D R i := by
  cases R with
  | ber =>
    simp only [Schema.run, taggedImplicit, taggedImplicitG]
    refine containerO_fst (fun c h => ?_) i
    simp only [Tick.fst_bind, Tick.fst_free, liftResE_ber, berReadElementContentAsO_fst, parseBerContent]
  | der =>
    simp only [Schema.run, taggedImplicit, taggedImplicitG]
    refine containerO_fst (fun c h => ?_) i
    simp only [Tick.fst_bind, Tick.fst_free, liftResE_ber, derReadElementContentAsO_fst, parseDerContent]

mutual
theorem runO_fst (D : Deps) (leaf : Any → Nat) (R : Rules) : ∀ (s : Schema) (i : Bytes),
    (s.runO D leaf R i).1 = s.run D R i
  | .any, i => by
    cases R
    · exact (C143_same_results D leaf maxRecursion 0 i).1
    · exact (C143_same_results D leaf maxRecursion 0 i).2.2.1
  | .typed tag, i => by
    cases R
    · exact (C143_same_results D leaf maxRecursion tag i).2.1
    · exact (C143_same_results D leaf maxRecursion tag i).2.2.2
  | .sequenceOf s, i => mapT_fst (definedO_fst (ofSubparserT_fst (runO_fst D leaf R s))) i
  | .setOf s, i => mapT_fst (definedO_fst (ofSubparserT_fst (runO_fst D leaf R s))) i
  | .sequence l, i => mapT_fst (definedO_fst (runAllO_fst D leaf R l)) i
  | .set l, i => mapT_fst (definedO_fst (runAllO_fst D leaf R l)) i
  | .explicit tag s, i => explicitO_fst (k := fun hdr o => .mk hdr (.tagged hdr.cls tag o)) (runO_fst D leaf R s) i
  | .implicit tag type, i => implicitO_fst D leaf R tag type i
  | .optional s, i => optionalT_fst (runO_fst D leaf R s) i
  | .explicitOptional tag s, i =>
    optionalT_fst (explicitO_fst (k := fun hdr o => .mk hdr (.tagged hdr.cls hdr.tag o)) (runO_fst D leaf R s)) i
  | .choice tag tags, i => by
    cases R
    · exact altT_fst (fun t c => (C143_same_results D leaf maxRecursion t c).2.1) tags tag i
    · exact altT_fst (fun t c => (C143_same_results D leaf maxRecursion t c).2.2.2) tags tag i
theorem runAllO_fst (D : Deps) (leaf : Any → Nat) (R : Rules) : ∀ (l : List Schema) (i : Bytes),
    (Schema.runAllO D leaf R l i).1 = Schema.runAll D R l i
  | [], i => rfl
  | s :: l, i => by
    simp only [Schema.runAllO, Schema.runAll, Tick.fst_bind, runO_fst D leaf R s, Tick.fst_free]
    congr 1; funext r
    rw [runAllO_fst D leaf R l]
end

/-! ## Bounds

`Paid (2 * w)` says that at most `w` octets are looked at for each octet. -/

theorem octets_frame (R : Rules) (i : Bytes) : PaidOctets (frameO R i) i.length fun s => s.1.length := by
  have take : ∀ l (j : Bytes), PaidOctets (Tick.free (takeComplete l j : IRes BerError Bytes)) j.length fun s => s.1.length := by
    intro l j
    refine .free fun a ha => ?_
    unfold takeComplete at ha
    split at ha
    · cases ha
    · cases ha; simp
  cases R with
  | ber =>
    refine (octets_headerFromBer i).bind fun r _ => PaidOctets.bind (f := fun s => s.1.length) ?_
      fun s _ => .free fun a ha => by cases ha; exact Nat.le_refl _
    cases r.2.length with
    | definite l => exact take l r.1
    | indefinite => exact octets_getObjectContent _ _ _
  | der =>
    refine (octets_headerFromDer i).bind fun r _ => PaidOctets.bind (f := fun s => s.1.length) ?_
      fun s _ => .free fun a ha => by cases ha; exact Nat.le_refl _
    cases r.2.length with
    | definite l => exact take l r.1
    | indefinite => exact .free (by simp)

theorem paidO_container (R : Rules) {w : Nat} {f : Bytes → Header → Tick (NomErr BerError) (Bytes × α)}
    (hf : ∀ c h, 2 * (f c h).2 ≤ w * (c.length + 1)) (i : Bytes) : Paid (w + 2) i (containerO R f i) := by
  unfold containerO
  obtain ⟨h1, h2⟩ := octets_frame R i
  unfold Tick.bind
  have e : (w + 2) * (i.length + 1) = w * (i.length + 1) + 2 * i.length + 2 := by rw [Nat.add_mul]; omega
  match hq : (frameO R i).1 with
  | .err _ | .panic | .diverge => exact ⟨by dsimp only; omega, by intro r hr; cases hr⟩
  | .ok s =>
    have h3 := h1 s hq
    have h4 := frame_data (by rw [← frameO_fst]; exact hq)
    have h5 := hf s.2.2 s.2.1
    have h6 := Nat.mul_le_mul_left w (show s.2.2.length + 1 + s.1.length ≤ i.length by omega)
    rw [Nat.mul_add] at h6
    have e2 : (w + 2) * s.1.length = w * s.1.length + 2 * s.1.length := by rw [Nat.add_mul]
    have e3 : (w + 2) * i.length = w * i.length + 2 * i.length := by rw [Nat.add_mul]
    have e4 : (w + 2) * (i.length + 1) = (w + 2) * i.length + w + 2 := by rw [Nat.mul_add]; omega
    dsimp only
    match hq2 : (f s.2.2 s.2.1).1 with
    | .err _ | .panic | .diverge => exact ⟨by dsimp only; omega, by intro r hr; cases hr⟩
    | .ok v => exact ⟨by dsimp only [Tick.free]; omega, by
        intro r hr _
        cases hr
        dsimp only [Tick.free] at h3 ⊢
        omega⟩

theorem paidO_defined (R : Rules) (tag : Nat) {f : Ticker α} {w : Nat} (hf : ∀ c, 2 * (f c).2 ≤ w * (c.length + 1))
    (i : Bytes) : Paid (w + 2) i (definedO R tag f i) :=
  paidO_container R (fun c _ => count_free_bind fun _ => hf c) i

theorem paidO_explicit (R : Rules) (tag : Nat) (k : Header → BerObject → BerObject) {f : Ticker BerObject} {w : Nat}
    (hf : ∀ c, 2 * (f c).2 ≤ w * (c.length + 1)) (i : Bytes) : Paid (w + 2) i (explicitO R tag k f i) := by
  refine paidO_container R (fun c h => ?_) i
  split
  · simp [Tick.free]
  · exact count_free_bind fun _ => count_free_bind fun _ => by rw [count_bind_free]; exact hf c

section
variable {leaf : Any → Nat} {K : Nat}

theorem paidO_implicit (D : Deps) (hl : ∀ a, leaf a ≤ K * (a.data.length + 2)) (R : Rules) (tag type : Nat) (i : Bytes) :
    Paid (2 * ((K + 52) * 2)) i (implicitO D leaf R tag type i) := by
  refine Paid.mono (paidO_container R (w := 2 * (2 * (50 + K) + 2)) (fun c h => ?_) i) (by omega)
  refine count_free_bind fun _ => ?_
  rw [count_bind_free]
  have e : 2 * (2 * (50 + K) + 2) * (c.length + 1) =
      2 * ((50 + K) * (c.length + 2) + (50 + K) * c.length + 2 * (c.length + 1)) := by
    rw [Nat.mul_assoc, Nat.add_mul, Nat.mul_comm 2 (50 + K), Nat.mul_assoc, ← Nat.mul_add]
    rw [show c.length + 2 + c.length = 2 * (c.length + 1) by omega]
  rw [e]
  cases R with
  | ber =>
    have := (octets_berReadElementContentAs D hl c type h.length h.constructed maxRecursion).2
    simp only [maxRecursion] at this ⊢
    omega
  | der =>
    have := (octets_derReadElementContentAs D hl c type h.length h.constructed maxRecursion).2
    simp only [maxRecursion] at this ⊢
    omega

theorem octets_definite (D : Deps) (hl : ∀ a, leaf a ≤ K * (a.data.length + 2)) (i : Bytes) (tag l : Nat) (c : Bool) (d : Nat) :
    (berReadElementContentAsO D leaf i tag (.definite l) c d).2 ≤ (d + K) * (min l i.length + 2) := by
  unfold berReadElementContentAsO
  dsimp only
  split
  · simp [Tick.free]
  · split
    · simp [Tick.free]
    · obtain ⟨-, h2⟩ := getObjectContentT_free (d := d) (h := .new .universal c tag (.definite l)) rfl i
      have h1 : (getObjectContentO d (.new .universal c tag (.definite l)) i).2 = 0 := by
        unfold getObjectContentO
        rw [count_bind_free]
        cases d <;> rfl
      unfold Tick.bind
      match hq : (getObjectContentO d (.new .universal c tag (.definite l)) i).1 with
      | .ok r =>
        obtain ⟨h3, h4⟩ := h2 r (by rw [getObjectContentT_fst, ← getObjectContentO_fst]; exact hq)
        dsimp only
        rw [h1]
        have h5 := (octets_objectFromAny D hl d ⟨.new .universal c tag (.definite l), r.2⟩).2
        have h6 := Nat.mul_le_mul_left (d + K) (show r.2.length + 2 ≤ min l i.length + 2 by omega)
        dsimp only at h5
        simp only [Tick.mapErr]
        split <;> dsimp only [Tick.free] <;> omega
      | .err _ | .panic | .diverge =>
        dsimp only
        rw [h1]
        omega

theorem octets_der_definite (D : Deps) (hl : ∀ a, leaf a ≤ K * (a.data.length + 2)) (i : Bytes) (tag l : Nat) (c : Bool) (d : Nat) :
    (derReadElementContentAsO D leaf i tag (.definite l) c d).2 ≤ (d + K) * (min l i.length + 2) + 2 := by
  unfold derReadElementContentAsO
  simp only [Length.definite?, liftRes, Outcome.mapErr, Tick.bind, Tick.free, lookTwo]
  split
  · dsimp only; omega
  · split
    · dsimp only; omega
    · have h1 := octets_definite D hl i tag l c d
      split <;> dsimp only <;> omega
end

section
variable {leaf : Any → Nat} {K : Nat}

theorem paidO_of {w : Nat} {i : Bytes} {x : Tick (NomErr BerError) (Bytes × α)} (h1 : x.2 ≤ w * i.length)
    (h2 : ∀ r, x.1 = .ok r → x.2 + w * r.1.length ≤ w * i.length) : Paid (2 * w) i x := by
  refine ⟨?_, fun r hr _ => ?_⟩
  · rw [Nat.mul_assoc, Nat.mul_add]; omega
  · have := h2 r hr
    rw [Nat.mul_assoc, Nat.mul_assoc]; omega

theorem paidO_ber_any (D : Deps) (hl : ∀ a, leaf a ≤ K * (a.data.length + 2)) (i : Bytes) :
    Paid (2 * (K + 52)) i (parseBerRecursiveO D leaf maxRecursion i) := by
  obtain ⟨h1, h2⟩ := C143_parse_ber D leaf K hl maxRecursion i
  refine Paid.mono (w := 2 * (K + 51)) (paidO_of ?_ fun r hr => ?_) (by omega)
  · rw [show K + 51 = maxRecursion + K + 1 by simp only [maxRecursion]; omega]; exact h1
  · have hr : parseBerRecursive D maxRecursion i = .ok (r.1, r.2) := by
      rw [← (C143_same_results D leaf maxRecursion 0 i).1]; exact hr
    have h3 := h2 r.1 r.2 hr
    obtain ⟨c, h4, -⟩ := C97_suffix D .ber .any i r.1 r.2 hr
    have h5 : i.length = c.length + r.1.length := by rw [h4, List.length_append]
    rw [show maxRecursion + K + 1 = K + 51 by simp only [maxRecursion]; omega] at h3
    rw [h5, Nat.mul_add]
    rw [show i.length - r.1.length = c.length by omega] at h3
    omega

theorem paidO_ber_typed (D : Deps) (hl : ∀ a, leaf a ≤ K * (a.data.length + 2)) (t : Nat) (i : Bytes) :
    Paid (2 * (K + 52)) i (parseBerWithTagO D leaf t i) := by
  have key : PaidOctets (parseBerWithTagO D leaf t i) (i.length + (50 + K) * i.length) fun r => (50 + K + 1) * r.1.length := by
    refine PaidOctets.bind (f := fun r => r.1.length + (50 + K) * (r.1.length + 2))
      ((octets_headerFromBer i).frame ((50 + K) * i.length) ?_ (Nat.le_refl _)) fun r _ => ?_
    · exact fun r hr => header_share (headerFromBer_pos (rem := r.1) (h := r.2) hr)
    · refine PaidOctets.bind (f := fun _ => r.1.length + (50 + K) * (r.1.length + 2)) (.free (by simp)) fun _ _ => ?_
      exact PaidOctets.bind (f := fun s => (50 + K + 1) * s.1.length)
        ((octets_berReadElementContentAs D hl r.1 _ _ _ _).frame 0 (by simp [maxRecursion]) (by simp [maxRecursion]))
        fun s _ => .free fun a ha => by cases ha; exact Nat.le_refl _
  have e : (50 + K + 1) * i.length = i.length + (50 + K) * i.length := by
    rw [Nat.add_mul (50 + K) 1, Nat.one_mul]; omega
  rw [← e] at key
  exact Paid.mono (w := 2 * (50 + K + 1)) (paidO_of key.2 fun r hr => key.1 r hr) (by omega)

/-- A header and then contents of at most `l` octets. -/
theorem paidO_content {i j : Bytes} {l n h : Nat} (h1 : j.length + 2 ≤ i.length) (hh : h + j.length ≤ i.length)
    (h2 : n ≤ (maxRecursion + K) * (min l j.length + 2) + 2) (y : Outcome (NomErr BerError) (Bytes × α))
    (hy : ∀ r, y = .ok r → r.1.length + l = j.length) : Paid (2 * (K + 52)) i (y, h + n) := by
  have e : ∀ m, (K + 52) * m = (maxRecursion + K) * m + 2 * m := by
    intro m; rw [← Nat.add_mul]; congr 1; simp only [maxRecursion]; omega
  have h3 := Nat.mul_le_mul_left (maxRecursion + K) (show min l j.length + 2 ≤ i.length by omega)
  refine paidO_of (by rw [e]; dsimp only; omega) fun r hr => ?_
  have h4 := hy r hr
  have h5 := Nat.mul_le_mul_left (maxRecursion + K) (show min l j.length + 2 + r.1.length ≤ i.length by omega)
  rw [Nat.mul_add] at h5
  rw [e, e]
  dsimp only
  omega

theorem paidO_der_typed (D : Deps) (hl : ∀ a, leaf a ≤ K * (a.data.length + 2)) (t : Nat) (i : Bytes) :
    Paid (2 * (K + 52)) i (parseDerWithTagO D leaf t i) := by
  have hd := octets_headerFromDer i
  have fail : ∀ y : Outcome (NomErr BerError) (Bytes × BerObject), (∀ r, y ≠ .ok r) → ∀ n, n ≤ i.length →
      Paid (2 * (K + 52)) i (y, n) := by
    intro y hy n hn
    refine paidO_of ?_ fun r hr => absurd hr (hy r)
    have : 1 * i.length ≤ (K + 52) * i.length := Nat.mul_le_mul_right _ (by omega)
    dsimp only; omega
  unfold parseDerWithTagO
  unfold Tick.bind
  match hq : (lookHeader headerFromDer i).1 with
  | .err _ | .panic | .diverge => exact fail _ (by simp) _ hd.2
  | .ok r =>
    have h1 := hd.1 r hq
    have h2 := headerFromDer_pos (rem := r.1) (h := r.2) hq
    obtain ⟨hb, -, H⟩ := headerFromDer_iff.1 (show headerFromDer i = .ok (r.1, r.2) from hq)
    have hne := H.definite
    cases hlen : r.2.length with
    | indefinite => exact absurd hlen hne
    | definite l =>
      have a1 := octets_der_definite D hl r.1 r.2.tag l r.2.constructed maxRecursion
      have a2 : ∀ s, (derReadElementContentAsO D leaf r.1 r.2.tag (.definite l) r.2.constructed maxRecursion).1 = .ok s →
          s.1.length + l = r.1.length := by
        rw [derReadElementContentAsO_fst, ← derReadElementContentAsT_fst]
        exact (derReadElementContentAsT_definite D r.1 r.2.tag l r.2.constructed maxRecursion).2
      rw [← hlen] at a1 a2
      refine paidO_content (j := r.1) (l := l) h2 h1 ?_ _ ?_
      · dsimp only [Tick.free]
        split
        · dsimp only
          split <;> dsimp only <;> omega
        all_goals dsimp only; omega
      · dsimp only [Tick.free]
        split
        · dsimp only
          split
          · intro s hs; cases hs; exact a2 _ ‹_›
          all_goals intro s hs; cases hs
        all_goals intro s hs; cases hs

theorem paidO_der_any (D : Deps) (hl : ∀ a, leaf a ≤ K * (a.data.length + 2)) (i : Bytes) :
    Paid (2 * (K + 52)) i (parseDerRecursiveO D leaf maxRecursion i) := by
  have hd := octets_headerFromDer i
  have fail : ∀ y : Outcome (NomErr BerError) (Bytes × BerObject), (∀ r, y ≠ .ok r) → ∀ n, n ≤ i.length →
      Paid (2 * (K + 52)) i (y, n) := by
    intro y hy n hn
    refine paidO_of ?_ fun r hr => absurd hr (hy r)
    have : 1 * i.length ≤ (K + 52) * i.length := Nat.mul_le_mul_right _ (by omega)
    dsimp only; omega
  unfold parseDerRecursiveO
  unfold Tick.bind
  match hq : (lookHeader headerFromDer i).1 with
  | .err _ | .panic | .diverge => exact fail _ (by simp) _ hd.2
  | .ok r =>
    have h1 := hd.1 r hq
    have h2 := headerFromDer_pos (rem := r.1) (h := r.2) hq
    obtain ⟨hb, -, H⟩ := headerFromDer_iff.1 (show headerFromDer i = .ok (r.1, r.2) from hq)
    have hne := H.definite
    dsimp only
    cases hlen : r.2.length with
    | indefinite => exact absurd hlen hne
    | definite l =>
      dsimp only
      split
      · exact fail _ (by simp [Tick.free]) _ (by dsimp only [Tick.free]; omega)
      · have hu : (derUnknownO r.1 r.2 maxRecursion).2 = 0 := derUnknownO_free hne
        have hu' : ∀ s, (derUnknownO r.1 r.2 maxRecursion).1 = .ok s → s.1.length + l = r.1.length := by
          obtain ⟨-, g2⟩ := getObjectContentT_free (d := maxRecursion) hlen r.1
          intro s hs
          unfold derUnknownO at hs
          rw [Tick.fst_bind] at hs
          obtain ⟨v, hv, hs⟩ := bind_eq_ok.1 hs
          cases hs
          exact (g2 v (by rw [getObjectContentT_fst, ← getObjectContentO_fst]; exact hv)).1
        have a1 := octets_der_definite D hl r.1 r.2.tag l r.2.constructed maxRecursion
        have a2 : ∀ s, (derReadElementContentAsO D leaf r.1 r.2.tag (.definite l) r.2.constructed maxRecursion).1 = .ok s →
            s.1.length + l = r.1.length := by
          rw [derReadElementContentAsO_fst, ← derReadElementContentAsT_fst]
          exact (derReadElementContentAsT_definite D r.1 r.2.tag l r.2.constructed maxRecursion).2
        refine paidO_content (j := r.1) (l := l) h2 h1 ?_ _ ?_
        · unfold derReadElementContentRecursiveO
          rw [hlen]
          split
          · omega
          · dsimp only
            split <;> dsimp only <;> omega
        · unfold derReadElementContentRecursiveO
          rw [hlen]
          split
          · exact hu'
          · dsimp only
            split
            · intro s hs; cases hs; exact a2 _ ‹_›
            · exact hu'
            all_goals intro s hs; cases hs

theorem paidO_alt {w : Nat} {p : Nat → Ticker BerObject} {i : Bytes} (hw : 2 ≤ w) (hp : ∀ t, Paid w i (p t i))
    (hx : ∀ t t' e r, (p t i).1 = .err (.error e) → (p t' i).1 = .ok r → (p t i).2 + r.1.length ≤ i.length)
    (tags : List Nat) : ∀ tag, Paid (w * (tags.length + 1)) i (altT p tag tags i) := by
  induction tags with
  | nil => intro tag; simpa [altT] using hp tag
  | cons t ts ih =>
    intro tag
    obtain ⟨h1, h2⟩ := hp tag
    obtain ⟨h3, h4⟩ := ih t
    have e : ∀ n, w * ((t :: ts).length + 1) * n = w * n + w * (ts.length + 1) * n := by
      intro n
      rw [List.length_cons, Nat.mul_add w (ts.length + 1), Nat.add_mul, Nat.mul_one]
      omega
    rw [altT]
    split
    · rename_i x hq
      refine ⟨by dsimp only; rw [e]; omega, fun r hr hlt => ?_⟩
      have h5 := h4 r hr hlt
      obtain ⟨t', h6⟩ := alt_mem (p := fun t i => (p t i).1) ts t
        (by rw [← altT_fst (p := p) fun _ _ => rfl]; exact hr)
      have h7 := hx tag t' _ r hq h6
      have h8 := Nat.mul_le_mul_right (i.length - r.1.length) hw
      have h9 := Nat.mul_sub w i.length r.1.length
      have h10 := Nat.mul_le_mul_left w (Nat.le_of_lt hlt)
      dsimp only
      rw [e, e]
      omega
    · refine ⟨by dsimp only; rw [e]; omega, fun r hr hlt => ?_⟩
      have h5 := h2 r hr hlt
      have h6 := Nat.mul_le_mul_left (w * (ts.length + 1)) (Nat.le_of_lt hlt)
      dsimp only
      rw [e, e]
      omega

/-- What a typed parser counts for an element with another tag: the octets of the header. -/
theorem typedO_other (D : Deps) (R : Rules) (i : Bytes) (t t' : Nat) (r : Bytes × BerObject) (ht : t ≠ t')
    (h : ((Schema.typed t').runO D leaf R i).1 = .ok r) :
    2 ≤ ((Schema.typed t).runO D leaf R i).2 ∧ ((Schema.typed t).runO D leaf R i).2 + r.1.length ≤ i.length := by
  have gen : ∀ (hdr : Bytes → IRes BerError Header)
      (body : Bytes → Header → Tick (NomErr BerError) (Bytes × Content)) (p : Nat → Ticker BerObject),
      (∀ i r, hdr i = .ok r → r.1.length + 2 ≤ i.length) →
      (∀ t i, p t i = (lookHeader hdr i).bind fun r => (Tick.free (liftRes (r.2.assertTag t))).bind fun _ =>
        (body r.1 r.2).bind fun s => .free (.ok (s.1, .mk r.2 s.2))) →
      (∀ c h s, (body c h).1 = .ok s → s.1.length ≤ c.length) →
      (p t' i).1 = .ok r → 2 ≤ (p t i).2 ∧ (p t i).2 + r.1.length ≤ i.length := by
    intro hdr body p hpos hp hb hr
    rw [hp] at hr
    obtain ⟨a, h1, h2, -⟩ := Tick.bind_ok hr
    obtain ⟨b, h4, h5, -⟩ := Tick.bind_ok h2
    obtain ⟨c, h6, h7, -⟩ := Tick.bind_ok h5
    rw [tick_free_fst, Outcome.ok.injEq] at h7
    subst h7
    have hta := assertTag_lift_ok h4
    obtain ⟨e, he⟩ := assertTag_lift_other (h := a.2) (t := t) (by rw [hta]; exact Ne.symm ht)
    have h1 : hdr i = .ok a := h1
    have h8 := hpos i a h1
    have h9 := hb _ _ _ h6
    have : (p t i).2 = i.length - a.1.length := by
      rw [hp]
      unfold Tick.bind lookHeader headerOctets Tick.free
      simp only [h1, he]
      omega
    rw [this]
    dsimp only
    omega
  cases R with
  | ber =>
    refine gen headerFromBer (fun i h => berReadElementContentAsO D leaf i h.tag h.length h.constructed maxRecursion)
      (fun t => (Schema.typed t).runO D leaf .ber) (fun _ r hr => headerFromBer_pos (rem := r.1) (h := r.2) hr)
      (fun t i => by simp only [Schema.runO]; rfl) (fun c h s hs => ?_) h
    rw [berReadElementContentAsO_fst, ← berReadElementContentAsT_fst] at hs
    have := (within_berReadElementContentAs D c h.tag h.length h.constructed maxRecursion).1 s hs
    simp only [maxRecursion] at this
    omega
  | der =>
    refine gen headerFromDer (fun i h => derReadElementContentAsO D leaf i h.tag h.length h.constructed maxRecursion)
      (fun t => (Schema.typed t).runO D leaf .der) (fun _ r hr => headerFromDer_pos (rem := r.1) (h := r.2) hr)
      (fun t i => by simp only [Schema.runO]; rfl) (fun c h s hs => ?_) h
    cases hl : h.length with
    | indefinite => rw [hl] at hs; cases hs
    | definite l =>
      rw [derReadElementContentAsO_fst, ← derReadElementContentAsT_fst, hl] at hs
      have := (derReadElementContentAsT_definite D c h.tag l h.constructed maxRecursion).2 s hs
      omega

theorem shorterO (D : Deps) (R : Rules) (s : Schema) (i : Bytes) (r : Bytes × BerObject)
    (h : (s.runO D leaf R i).1 = .ok r) : r.1.length ≤ i.length := by
  rw [runO_fst] at h
  obtain ⟨c, h1, -⟩ := C97_suffix D R s i r.1 r.2 h
  rw [h1, List.length_append]
  omega

theorem paidO_typed (D : Deps) (hl : ∀ a, leaf a ≤ K * (a.data.length + 2)) (R : Rules) (t : Nat) (i : Bytes) :
    Paid (2 * (K + 52)) i ((Schema.typed t).runO D leaf R i) := by
  cases R <;> simp only [Schema.runO]
  · exact paidO_ber_typed D hl t i
  · exact paidO_der_typed D hl t i

mutual
theorem paid_runO (D : Deps) (hl : ∀ a, leaf a ≤ K * (a.data.length + 2)) (R : Rules) : ∀ (s : Schema) (i : Bytes),
    Paid (2 * (K + 52) * parts s) i (s.runO D leaf R i)
  | .any, i => by
    cases R <;> simp only [Schema.runO, parts, Nat.mul_one]
    · exact paidO_ber_any D hl i
    · exact paidO_der_any D hl i
  | .typed t, i => by rw [parts, Nat.mul_one]; exact paidO_typed D hl R t i
  | .sequenceOf s, i =>
    (paid_map (paidO_defined R _ (count_ofSubparser (paid_runO D hl R s) (shorterO D R s))) i).mono
      (by rw [parts, Nat.mul_add (2 * (K + 52))]; omega)
  | .setOf s, i =>
    (paid_map (paidO_defined R _ (count_ofSubparser (paid_runO D hl R s) (shorterO D R s))) i).mono
      (by rw [parts, Nat.mul_add (2 * (K + 52))]; omega)
  | .sequence l, i =>
    (paid_map (paidO_defined R _ (count_runAllO D hl R l)) i).mono (by rw [parts, Nat.mul_add (2 * (K + 52))]; omega)
  | .set l, i =>
    (paid_map (paidO_defined R _ (count_runAllO D hl R l)) i).mono (by rw [parts, Nat.mul_add (2 * (K + 52))]; omega)
  | .explicit t s, i =>
    (paidO_explicit R t _ (fun c => (paid_runO D hl R s c).1) i).mono (by rw [parts, Nat.mul_add (2 * (K + 52))]; omega)
  | .implicit t y, i => (paidO_implicit D hl R t y i).mono (by rw [parts]; omega)
  | .optional s, i => (paid_optional (paid_runO D hl R s) i).mono (by rw [parts, Nat.mul_add (2 * (K + 52))]; omega)
  | .explicitOptional t s, i =>
    (paid_optional (paidO_explicit .ber t _ fun c => (paid_runO D hl R s c).1) i).mono
      (by rw [parts, Nat.mul_add (2 * (K + 52))]; omega)
  | .choice t ts, i => by
    have h := paidO_alt (p := fun t => (Schema.typed t).runO D leaf R) (i := i) (w := 2 * (K + 52)) (by omega)
      (fun t => paidO_typed D hl R t i) (fun t t' e r h h' => by
        by_cases ht : t = t'
        · subst ht; rw [h] at h'; cases h'
        · exact (typedO_other D R i t t' r ht h').2) ts t
    cases R <;> simpa only [Schema.runO, parts] using h
theorem count_runAllO (D : Deps) (hl : ∀ a, leaf a ≤ K * (a.data.length + 2)) (R : Rules) :
    ∀ (l : List Schema) (i : Bytes), 2 * (Schema.runAllO D leaf R l i).2 ≤ 2 * (K + 52) * partsAll l * (i.length + 1)
  | [], i => by simp [Schema.runAllO, Tick.free]
  | s :: l, i => by
    have h1 := (paid_runO D hl R s i).1
    have e : 2 * (K + 52) * partsAll (s :: l) * (i.length + 1) =
        2 * (K + 52) * parts s * (i.length + 1) + 2 * (K + 52) * partsAll l * (i.length + 1) := by
      rw [partsAll, Nat.mul_add (2 * (K + 52)), Nat.add_mul]
    rw [e, Schema.runAllO]
    refine count_bind h1 fun r hq => ?_
    rw [count_bind_free]
    exact Nat.le_trans (count_runAllO D hl R l r.1)
      (Nat.mul_le_mul_left (2 * (K + 52) * partsAll l) (Nat.succ_le_succ (shorterO D R s i r hq)))
end
end

/-! ## C144 -/

/-- C144: counting does not change the results. -/
theorem C144_same_results (D : Deps) (leaf : Any → Nat) (R : Rules) (s : Schema) (i : Bytes) :
    (s.runO D leaf R i).1 = s.run D R i :=
  runO_fst D leaf R s i

/-- C144: if the conversion of a value costs at most `K` for each octet of it and `2 * K` besides, a composed parser costs
at most `K + 52` for each of its parts and each octet of the input (and one octet more), whether it succeeds or not. -/
theorem C144_linear (D : Deps) (leaf : Any → Nat) (K : Nat) (hl : ∀ a, leaf a ≤ K * (a.data.length + 2))
    (R : Rules) (s : Schema) (i : Bytes) : (s.runO D leaf R i).2 ≤ (K + 52) * parts s * (i.length + 1) := by
  have := (paid_runO D hl R s i).1
  rw [Nat.mul_assoc 2, Nat.mul_assoc 2] at this
  omega

/-- C144: if it succeeds and reads something, only the octets that are read count, not those that follow. -/
theorem C144_consumed (D : Deps) (leaf : Any → Nat) (K : Nat) (hl : ∀ a, leaf a ≤ K * (a.data.length + 2))
    (R : Rules) (s : Schema) (i e rem : Bytes) (o : BerObject)
    (h : s.run D R i = .ok (rem, o)) (he : i = e ++ rem) (hne : e ≠ []) :
    (s.runO D leaf R i).2 ≤ (K + 52) * parts s * e.length := by
  have hlen : i.length = e.length + rem.length := by rw [he, List.length_append]
  have hp := List.length_pos_iff.2 hne
  have h1 := (paid_runO D hl R s i).2 (rem, o) (by rw [runO_fst]; exact h) (by dsimp only; omega)
  have e3 : ∀ n, 2 * (K + 52) * parts s * n = 2 * ((K + 52) * parts s * n) := by
    intro n; rw [Nat.mul_assoc 2, Nat.mul_assoc 2]
  rw [hlen, Nat.mul_add (2 * (K + 52) * parts s), e3, e3] at h1
  dsimp only at h1
  omega

example := C144_linear Tests.D0 Tests.unitLeaf 1 (fun a => by simp [Tests.unitLeaf]) .ber (.sequenceOf (.choice 5 [1]))
  [0x30, 0x05, 0x05, 0x00, 0x01, 0x01, 0xff]

example := C144_consumed Tests.D0 Tests.unitLeaf 1 (fun a => by simp [Tests.unitLeaf]) .ber (.sequenceOf (.choice 5 [1]))
  [0x30, 0x05, 0x05, 0x00, 0x01, 0x01, 0xff, 9] [0x30, 0x05, 0x05, 0x00, 0x01, 0x01, 0xff] [9] _ rfl rfl (by simp)

/-! ## The counts are not too small -/

namespace Spec

mutual
/-- The headers that were found for the value `o` of a composition: one for each object that was read, and one for each
alternative that was tried in vain. -/
def found : Schema → BerObject → Nat
  | .any, o => objects o
  | .typed _, o => objects o
  | .implicit _ _, o => objects o
  | .choice tag tags, o => (tag :: tags).idxOf o.header.tag + objects o
  | .sequenceOf s, .mk _ (.sequence l) => 1 + (l.map fun o => found s o).sum
  | .setOf s, .mk _ (.set l) => 1 + (l.map fun o => found s o).sum
  | .sequence ss, .mk _ (.sequence l) => 1 + foundAll ss l
  | .set ss, .mk _ (.set l) => 1 + foundAll ss l
  | .explicit _ s, .mk _ (.tagged _ _ o) => 1 + found s o
  | .optional s, .mk _ (.optionalSome o) => found s o
  | .explicitOptional _ s, .mk _ (.optionalSome (.mk _ (.tagged _ _ o))) => 1 + found s o
  | _, _ => 0
/-- The same for the components of a SEQUENCE or SET. -/
def foundAll : List Schema → List BerObject → Nat
  | s :: ss, o :: os => found s o + foundAll ss os
  | _, _ => 0
end

end Spec

/-- On success at least two octets are looked at for each of `g`. -/
def AtLeast (p : Ticker α) (g : α → Nat) : Prop := ∀ i r, (p i).1 = .ok r → 2 * g r.2 ≤ (p i).2

theorem frameO_least {R : Rules} {i : Bytes} {s : Bytes × (Header × Bytes)} (h : (frameO R i).1 = .ok s) :
    2 ≤ (frameO R i).2 := by
  have look : ∀ {p : Bytes → IRes BerError Header} {r}, (∀ r, p i = .ok r → r.1.length + 2 ≤ i.length) →
      (lookHeader p i).1 = .ok r → 2 ≤ (lookHeader p i).2 := by
    intro p r hp hr
    have hr : p i = .ok r := hr
    have := hp r hr
    simp only [lookHeader, headerOctets, hr]
    omega
  cases R with
  | ber =>
    unfold frameO at h ⊢
    obtain ⟨r, h1, -, h3⟩ := Tick.bind_ok h
    have := look (fun r hr => headerFromBer_pos (rem := r.1) (h := r.2) hr) h1
    dsimp only at h3 ⊢
    rw [h3]; omega
  | der =>
    unfold frameO at h ⊢
    obtain ⟨r, h1, -, h3⟩ := Tick.bind_ok h
    have := look (fun r hr => headerFromDer_pos (rem := r.1) (h := r.2) hr) h1
    dsimp only at h3 ⊢
    rw [h3]; omega

theorem containerO_ok {R : Rules} {f : Bytes → Header → Tick (NomErr BerError) (Bytes × α)} {i : Bytes}
    {r : Bytes × α} (h : (containerO R f i).1 = .ok r) :
    ∃ c hd q, (f c hd).1 = .ok q ∧ q.2 = r.2 ∧ 2 + (f c hd).2 ≤ (containerO R f i).2 := by
  unfold containerO at h ⊢
  obtain ⟨s, h1, h2, h3⟩ := Tick.bind_ok h
  obtain ⟨q, h4, h5, h6⟩ := Tick.bind_ok h2
  rw [tick_free_fst, Outcome.ok.injEq] at h5
  subst h5
  have a1 := frameO_least h1
  rw [h3, h6, tick_free_snd]
  exact ⟨s.2.2, s.2.1, q, h4, rfl, by omega⟩

theorem definedO_least {R : Rules} {tag : Nat} {f : Ticker α} {g : α → Nat} (h : AtLeast f g) :
    AtLeast (definedO R tag f) (fun a => 1 + g a) := by
  intro i r hr
  obtain ⟨c, hd, q, h1, h2, h3⟩ := containerO_ok hr
  obtain ⟨u, h6, h7, h8⟩ := Tick.bind_ok h1
  rw [h8, tick_free_snd, Nat.zero_add] at h3
  have a1 := h c q h7
  rw [h2] at a1
  have h3 : 2 + (f c).2 ≤ (definedO R tag f i).2 := h3
  dsimp only
  omega

theorem mapO_least {f : Ticker α} {k : α → β} {g : α → Nat} {g' : β → Nat} (h : AtLeast f g)
    (hg : ∀ a, g' (k a) = g a) : AtLeast (mapT k f) g' := by
  intro i r hr
  unfold mapT at hr ⊢
  obtain ⟨q, h1, h2, h3⟩ := Tick.bind_ok hr
  rw [tick_free_fst, Outcome.ok.injEq] at h2
  subst h2
  rw [h3, tick_free_snd, Nat.add_zero]
  dsimp only
  rw [hg]
  exact h i q h1

theorem many0O_least {f : Ticker α} {g : α → Nat} (h : AtLeast f g) :
    ∀ fuel i r, (many0T (completeCutT f) fuel i).1 = .ok r →
      2 * (r.2.map g).sum ≤ (many0T (completeCutT f) fuel i).2
  | 0, i, r, hr => by cases hr
  | fuel + 1, i, r, hr => by
    unfold many0T at hr ⊢
    cases hq : (completeCutT f i).1 with
    | panic => simp [hq] at hr
    | diverge => simp [hq] at hr
    | err e =>
      cases e with
      | error e =>
        simp only [hq, Outcome.ok.injEq] at hr ⊢
        subst hr
        simp
      | incomplete n => simp [hq] at hr
      | failure e => simp [hq] at hr
    | ok q =>
      simp only [hq] at hr ⊢
      split at hr
      · cases hr
      · rename_i hl
        rw [if_neg hl]
        dsimp only at hr ⊢
        obtain ⟨t, ht, ht'⟩ := bind_eq_ok.1 hr
        cases ht'
        have a1 := many0O_least h fuel q.1 t ht
        have b1 := h i q (completeCutT_ok hq)
        have e : (completeCutT f i).2 = (f i).2 := rfl
        simp only [List.map_cons, List.sum_cons, e]
        omega

theorem ofSubparserO_least {f : Ticker α} {g : α → Nat} (h : AtLeast f g) :
    AtLeast (ofSubparserT f) (fun l => (l.map g).sum) := by
  intro i r hr
  unfold ofSubparserT at hr ⊢
  obtain ⟨q, h1, h2, h3⟩ := Tick.bind_ok hr
  rw [h3, tick_free_snd, Nat.add_zero]
  rw [tick_free_fst] at h2
  have a1 := many0O_least h _ i q h1
  split at h2
  · cases h2; exact a1
  · cases h2

theorem explicitO_least {R : Rules} {tag : Nat} {k : Header → BerObject → BerObject} {f : Ticker BerObject}
    {g g' : BerObject → Nat} (h : AtLeast f g) (hg : ∀ hd o, g' (k hd o) = 1 + g o) :
    AtLeast (explicitO R tag k f) g' := by
  intro i r hr
  obtain ⟨c, hd, q, h1, h2, h3⟩ := containerO_ok hr
  have h3' : 2 + _ ≤ (explicitO R tag k f i).2 := h3
  rw [← h2]
  split at h1
  · cases h1
  · rename_i hc
    rw [if_neg hc] at h3'
    obtain ⟨u, h6, h7, h8⟩ := Tick.bind_ok h1
    obtain ⟨v, h9, h10, h11⟩ := Tick.bind_ok h7
    obtain ⟨s, h12, h13, h14⟩ := Tick.bind_ok h10
    rw [tick_free_fst, Outcome.ok.injEq] at h13
    subst h13
    rw [h8, h11, h14, tick_free_snd, tick_free_snd, tick_free_snd, Nat.zero_add, Nat.zero_add, Nat.add_zero] at h3'
    have a1 := h c _ h12
    dsimp only
    rw [hg]
    omega

theorem twice_derReadElementContentAs (D : Deps) (leaf : Any → Nat) (i : Bytes) (t : Nat) (l : Length) (c : Bool) (d : Nat) :
    TwiceCost (derReadElementContentAsT D i t l c d) (derReadElementContentAsO D leaf i t l c d) := by
  refine (TwiceCost.free _).bind fun l => ?_
  split
  · exact .free _
  · split
    · exact .step _ _
    · exact (TwiceCost.step _ 2).bind fun _ => twice_berReadElementContentAs D leaf _ _ _ _ _

theorem implicitO_least (D : Deps) (leaf : Any → Nat) (R : Rules) (tag type : Nat) :
    AtLeast (implicitO D leaf R tag type) objects := by
  intro i r hr
  obtain ⟨c, hd, q, h1, h2, h3⟩ := containerO_ok hr
  have h3 : 2 + _ ≤ (implicitO D leaf R tag type i).2 := h3
  rw [← h2]
  obtain ⟨u, h6, h7, h8⟩ := Tick.bind_ok h1
  obtain ⟨s, h9, h10, h11⟩ := Tick.bind_ok h7
  rw [tick_free_fst, Outcome.ok.injEq] at h10
  subst h10
  rw [h8, h11, tick_free_snd, tick_free_snd, Nat.zero_add, Nat.add_zero] at h3
  cases R with
  | ber =>
    have t := twice_berReadElementContentAs D leaf c type hd.length hd.constructed maxRecursion
    have t2 := t.2 s (t.1.trans h9)
    have := (retag_least (exact_readAs D c { hd with tag := type } maxRecursion) (t.1.trans h9)).1
    dsimp only at h3 this ⊢
    omega
  | der =>
    have t := twice_derReadElementContentAs D leaf c type hd.length hd.constructed maxRecursion
    have t2 := t.2 s (t.1.trans h9)
    have := (retag_least (exact_derReadAs D c { hd with tag := type } maxRecursion) (t.1.trans h9)).1
    dsimp only at h3 this ⊢
    omega

theorem optionalO_least {f : Ticker BerObject} {g g' : BerObject → Nat} (h : AtLeast f g)
    (hs : ∀ hd o, g' (.mk hd (.optionalSome o)) = g o) (hn : g' (.fromObj .optionalNone) = 0) :
    AtLeast (optionalT f) g' := by
  intro i r hr
  have hr : parseOptional (fun j => (f j).1) i = .ok r := hr
  have e : (optionalT f i).2 = (f i).2 := rfl
  rw [e]
  unfold parseOptional at hr
  split at hr
  · rename_i q hq
    cases hr
    dsimp only
    rw [hs]
    exact h i q hq
  · cases hr
    dsimp only
    rw [hn]
    omega
  · cases hr
  · cases hr

theorem typedO_least (D : Deps) (leaf : Any → Nat) (R : Rules) (tag : Nat) :
    AtLeast ((Schema.typed tag).runO D leaf R) objects := by
  intro i r hr
  have hT : ((Schema.typed tag).runT D R i).1 = .ok r := by
    rw [runT_fst, ← runO_fst D leaf]; exact hr
  have h1 := ((picky_typed D R).least tag i r hT).1
  have h2 := C143_at_least D leaf 0 tag i r.1 r.2
  have h3 := runO_fst D leaf R (.typed tag) i
  cases R with
  | ber =>
    simp only [Schema.runO, Schema.runT] at hr h1 ⊢
    have := h2.2.1 (by rw [← (C143_same_results D leaf 0 tag i).2.1]; exact hr)
    omega
  | der =>
    simp only [Schema.runO, Schema.runT] at hr h1 ⊢
    have := h2.2.2 (by rw [← (C143_same_results D leaf 0 tag i).2.2.2]; exact hr)
    omega

theorem anyO_least (D : Deps) (leaf : Any → Nat) (R : Rules) : AtLeast (Schema.any.runO D leaf R) objects := by
  intro i r hr
  cases R with
  | ber =>
    simp only [Schema.runO] at hr ⊢
    have hr : parseBerRecursive D maxRecursion i = .ok (r.1, r.2) := by
      rw [← (C143_same_results D leaf maxRecursion 0 i).1]; exact hr
    have h1 := (C143_at_least D leaf maxRecursion 0 i r.1 r.2).1 hr
    have h2 := (C95_parse_ber D maxRecursion i r.1 r.2 hr).1
    simp only [objects]
    omega
  | der =>
    simp only [Schema.runO, parseDerRecursiveO] at hr ⊢
    obtain ⟨a, h1, h2, h3⟩ := Tick.bind_ok hr
    rw [h3]
    have h4 := headerFromDer_pos (rem := a.1) (h := a.2) h1
    have h5 : 2 ≤ (lookHeader headerFromDer i).2 := by
      have h1 : headerFromDer i = .ok a := h1
      simp only [lookHeader, headerOctets, h1]
      omega
    have unk : ∀ s, (derUnknownO a.1 a.2 maxRecursion).1 = .ok s → objects s.2 = 1 := by
      intro s hs
      unfold derUnknownO at hs
      obtain ⟨v, -, hv, -⟩ := Tick.bind_ok hs
      rw [tick_free_fst, Outcome.ok.injEq] at hv
      subst hv
      rfl
    have body : ∀ s, (derReadElementContentRecursiveO D leaf a.1 a.2 maxRecursion).1 = .ok s →
        2 * objects s.2 ≤ 2 + (derReadElementContentRecursiveO D leaf a.1 a.2 maxRecursion).2 := by
      intro s hs
      unfold derReadElementContentRecursiveO at hs ⊢
      split at hs
      · rw [unk s hs]; omega
      · rename_i hc
        rw [if_neg hc]
        dsimp only at hs ⊢
        split at hs
        · rename_i v hv
          have t := twice_derReadElementContentAs D leaf a.1 a.2.tag a.2.length a.2.constructed maxRecursion
          have t2 := t.2 v (t.1.trans hv)
          have := (retag_least (exact_derReadAs D a.1 { a.2 with tag := a.2.tag } maxRecursion) (t.1.trans hv)).1
          cases hs
          dsimp only at this ⊢
          omega
        · have := unk s hs
          dsimp only
          omega
        all_goals cases hs
    have h2' : ∀ x, x.1 = .ok r → (2 * objects r.2 ≤ 2 + x.2) →
        2 * objects r.2 ≤ (lookHeader headerFromDer i).2 + (x : Tick (NomErr BerError) (Bytes × BerObject)).2 := by
      intro x _ hx; omega
    refine h2' _ h2 ?_
    split at h2
    · split at h2
      · cases h2
      · rename_i hm
        rw [if_neg hm]
        exact body r h2
    · exact body r h2

theorem altO_least {p : Nat → Ticker BerObject} (own : ∀ t i r, (p t i).1 = .ok r → r.2.header.tag = t)
    (other : ∀ t u i r, (p t i).1 = .ok r → u ≠ t → 2 ≤ (p u i).2) (hp : ∀ t, AtLeast (p t) objects) :
    ∀ (tags : List Nat) (tag : Nat),
      AtLeast (altT p tag tags) (fun o => (tag :: tags).idxOf o.header.tag + objects o)
  | [], tag => fun i r hr => by
    unfold altT at hr ⊢
    dsimp only at hr ⊢
    rw [own tag i r hr]
    have := hp tag i r hr
    simpa using this
  | t :: ts, tag => fun i r hr => by
    have ih := altO_least own other hp ts t i r
    have hr' := hr
    unfold altT at hr ⊢
    dsimp only at hr ⊢
    cases hq : (p tag i).1 with
    | ok q =>
      simp only [hq, Outcome.ok.injEq] at hr ⊢
      subst hr
      rw [own tag i q hq]
      have := hp tag i q hq
      simpa using this
    | panic => simp [hq] at hr
    | diverge => simp [hq] at hr
    | err e =>
      cases e with
      | incomplete n => simp [hq] at hr
      | failure e => simp [hq] at hr
      | error e =>
        simp only [hq] at hr ⊢
        have a1 := ih hr
        obtain ⟨t', ht'⟩ := alt_mem (p := fun t i => (p t i).1) ts t
          (by rw [← altT_fst (p := p) fun _ _ => rfl]; exact hr)
        have hne : tag ≠ t' := by
          rintro rfl
          rw [hq] at ht'
          cases ht'
        have h1 := other t' tag i r ht' hne
        have hx : (tag :: t :: ts).idxOf r.2.header.tag = (t :: ts).idxOf r.2.header.tag + 1 := by
          rw [List.idxOf_cons]
          have : (tag == r.2.header.tag) = false := by rw [own t' i r ht']; simpa using hne
          rw [this]
          rfl
        dsimp only at a1
        rw [hx]
        omega

mutual
theorem runO_least (D : Deps) (leaf : Any → Nat) (R : Rules) : ∀ s : Schema, AtLeast (s.runO D leaf R) (found s)
  | .any => by
    intro i r hr
    simp only [found]
    exact anyO_least D leaf R i r hr
  | .typed tag => by
    intro i r hr
    simp only [found]
    exact typedO_least D leaf R tag i r hr
  | .sequenceOf s => by
    intro i r hr
    simp only [Schema.runO] at hr ⊢
    exact mapO_least (g' := found (.sequenceOf s)) (definedO_least (ofSubparserO_least (runO_least D leaf R s)))
      (fun l => by simp only [found, BerObject.fromSeq, BerObject.fromObj]) i r hr
  | .setOf s => by
    intro i r hr
    simp only [Schema.runO] at hr ⊢
    exact mapO_least (g' := found (.setOf s)) (definedO_least (ofSubparserO_least (runO_least D leaf R s)))
      (fun l => by simp only [found, BerObject.fromSet, BerObject.fromObj]) i r hr
  | .sequence ss => by
    intro i r hr
    simp only [Schema.runO] at hr ⊢
    exact mapO_least (g' := found (.sequence ss)) (definedO_least (runAllO_least D leaf R ss))
      (fun l => by simp only [found, BerObject.fromSeq, BerObject.fromObj]) i r hr
  | .set ss => by
    intro i r hr
    simp only [Schema.runO] at hr ⊢
    exact mapO_least (g' := found (.set ss)) (definedO_least (runAllO_least D leaf R ss))
      (fun l => by simp only [found, BerObject.fromSet, BerObject.fromObj]) i r hr
  | .explicit tag s => by
    intro i r hr
    simp only [Schema.runO] at hr ⊢
    exact explicitO_least (g' := found (.explicit tag s)) (runO_least D leaf R s) (fun hd o => by simp only [found]) i r hr
  | .implicit tag type => by
    intro i r hr
    simp only [Schema.runO] at hr ⊢
    simp only [found]
    exact implicitO_least D leaf R tag type i r hr
  | .optional s => by
    intro i r hr
    simp only [Schema.runO] at hr ⊢
    exact optionalO_least (g' := found (.optional s)) (runO_least D leaf R s) (fun hd o => by simp only [found])
      (by simp only [BerObject.fromObj, found]) i r hr
  | .explicitOptional tag s => by
    intro i r hr
    simp only [Schema.runO] at hr ⊢
    have h1 : AtLeast (explicitO .ber tag (fun hdr o => .mk hdr (.tagged hdr.cls hdr.tag o)) (s.runO D leaf R))
        (fun o => match o with | .mk _ (.tagged _ _ o) => 1 + found s o | _ => 0) :=
      explicitO_least (runO_least D leaf R s) (fun hd o => rfl)
    refine optionalO_least (g' := found (.explicitOptional tag s)) h1 (fun hd o => ?_) ?_ i r hr
    · obtain ⟨hd', c⟩ := o
      cases c <;> simp only [found]
    · simp only [BerObject.fromObj, found]
  | .choice tag tags => by
    intro i r hr
    have := altO_least (p := fun t => (Schema.typed t).runO D leaf R)
      (fun t i r hr => (picky_typed D R).own t i r (by rw [runT_fst, ← runO_fst D leaf]; exact hr))
      (fun t u i r hr hu => (typedO_other D R i u t r hu hr).1) (typedO_least D leaf R) tags tag i r
    simp only [found]
    cases R <;> simp only [Schema.runO] at hr this ⊢ <;> exact this hr
theorem runAllO_least (D : Deps) (leaf : Any → Nat) (R : Rules) : ∀ ss : List Schema,
    AtLeast (Schema.runAllO D leaf R ss) (foundAll ss)
  | [] => fun i r hr => by simp [foundAll]
  | s :: ss => fun i r hr => by
    simp only [Schema.runAllO] at hr ⊢
    obtain ⟨a, h1, h2, h3⟩ := Tick.bind_ok hr
    obtain ⟨b, h4, h5, h6⟩ := Tick.bind_ok h2
    rw [tick_free_fst, Outcome.ok.injEq] at h5
    subst h5
    rw [h3, h6, tick_free_snd]
    have a1 := runO_least D leaf R s i a h1
    have a2 := runAllO_least D leaf R ss a.1 b h4
    simp only [foundAll]
    omega
end

/-- C144: the counts are not too small.  On success at least two octets are counted for each object of the result and
for each alternative tried in vain. -/
theorem C144_at_least (D : Deps) (leaf : Any → Nat) (R : Rules) (s : Schema) (i rem : Bytes) (o : BerObject)
    (h : s.run D R i = .ok (rem, o)) : 2 * found s o ≤ (s.runO D leaf R i).2 :=
  runO_least D leaf R s i (rem, o) (by rw [runO_fst]; exact h)

example := C144_at_least Tests.D0 Tests.unitLeaf .ber (.sequenceOf (.choice 5 [1]))
  [0x30, 0x05, 0x05, 0x00, 0x01, 0x01, 0xff, 9] [9] _ rfl

/-- A header of two octets; NULL: two octets and a conversion of no octets at cost 2; BOOLEAN: the header twice, and a
conversion of one octet at cost 3. -/
example : ((Schema.sequenceOf (.choice 5 [1])).runO Tests.D0 Tests.unitLeaf .ber
    [0x30, 0x05, 0x05, 0x00, 0x01, 0x01, 0xff]).2 = 2 + (2 + 2) + (2 + 2 + 3) := by decide +kernel

open Tests

private theorem look_two {hd : Header} {a b : UInt8} {t : Bytes} (h : headerFromBer (a :: b :: t) = .ok (t, hd)) :
    lookHeader headerFromBer (a :: b :: t) = (.ok (t, hd), 2) := by
  simp only [lookHeader, headerOctets, h, List.length_cons]
  congr 1
  omega

private theorem skipO_null (d : Nat) (t : Bytes) : skipContentO (d + 1) hdrNull t = (.ok (t, false), 0) := by
  simp [skipContentO, hdrNull, Tick.free, takeStreaming, Tag.endOfContent]

private theorem skipO_eoc (d : Nat) (t : Bytes) : skipContentO (d + 1) hdrEoc t = (.ok (t, true), 0) := by
  simp [skipContentO, hdrEoc, Tick.free, Tag.endOfContent]

private theorem skipLoopO_nulls (d : Nat) (t : Bytes) : ∀ k fuel, k < fuel →
    skipLoopO (skipContentO (d + 1)) fuel (nulls k ++ 0x00 :: 0x00 :: t) = (.ok (t, false), 2 * k + 2) := by
  intro k
  induction k with
  | zero =>
    intro fuel hf
    obtain ⟨fuel, rfl⟩ : ∃ f, fuel = f + 1 := ⟨fuel - 1, by omega⟩
    simp [skipLoopO, nulls, look_two (header_eoc _), Tick.bind, skipO_eoc, Tick.free]
  | succ k ih =>
    intro fuel hf
    obtain ⟨fuel, rfl⟩ : ∃ f, fuel = f + 1 := ⟨fuel - 1, by omega⟩
    simp [skipLoopO, nulls, look_two (header_null _), Tick.bind, skipO_null, ih fuel (by omega)]
    omega

private theorem skipLoopO_nested (k d : Nat) : ∀ j fuel t, (nestedIndef k j).length < fuel →
    skipLoopO (skipContentO (d + j + 1)) fuel (nestedIndef k j ++ 0x00 :: 0x00 :: t) =
      (.ok (t, false), 2 * k + 2 + 4 * j) := by
  intro j
  induction j with
  | zero =>
    intro fuel t hf
    rw [nestedIndef_length] at hf
    exact skipLoopO_nulls d t k fuel (by omega)
  | succ j ih =>
    intro fuel t hf
    rw [nestedIndef_length] at hf
    obtain ⟨fuel, rfl⟩ : ∃ f, fuel = f + 2 := ⟨fuel - 2, by omega⟩
    have h1 : skipContentO (d + (j + 1) + 1) hdrSeqIndef
        (nestedIndef k j ++ [0x00, 0x00] ++ 0x00 :: 0x00 :: t) =
        (.ok (0x00 :: 0x00 :: t, false), 2 * k + 2 + 4 * j) := by
      have := ih ((nestedIndef k j ++ [0x00, 0x00] ++ 0x00 :: 0x00 :: t).length + 1)
        (0x00 :: 0x00 :: t) (by simp; omega)
      simpa [skipContentO, hdrSeqIndef] using this
    have h2 : skipLoopO (skipContentO (d + (j + 1) + 1)) (fuel + 1) (0x00 :: 0x00 :: t) =
        (.ok (t, false), 2) := by
      simp [skipLoopO, look_two (header_eoc _), Tick.bind, skipO_eoc, Tick.free]
    rw [skipLoopO, nestedIndef]
    simp only [List.cons_append, look_two (header_seq _), Tick.bind, h1, h2]
    simp
    omega

theorem frameO_nested (n j : Nat) (hj : j ≤ 48) (t : Bytes) :
    frameO .ber (nestedIndef n (j + 1) ++ t) = (.ok (t, (hdrSeqIndef, nestedIndef n j)), 2 * n + 4 + 4 * j) := by
  have hT := frameT_nested n j hj t
  have hf : (frameO .ber (nestedIndef n (j + 1) ++ t)).1 = .ok (t, (hdrSeqIndef, nestedIndef n j)) := by
    rw [frameO_fst, ← frameT_fst, hT]
  refine Prod.ext hf ?_
  have h3 : nestedIndef n (j + 1) ++ t = 0x30 :: 0x80 :: (nestedIndef n j ++ 0x00 :: 0x00 :: t) := by
    simp [nestedIndef]
  have h1 : skipContentO maxRecursion hdrSeqIndef (nestedIndef n j ++ 0x00 :: 0x00 :: t) =
      (.ok (t, false), 2 * n + 2 + 4 * j) := by
    have := skipLoopO_nested n (48 - j) j ((nestedIndef n j ++ 0x00 :: 0x00 :: t).length + 1) t
      (by simp; omega)
    have h49 : 48 - j + j + 1 = 49 := by omega
    rw [h49] at this
    rw [← this]
    rfl
  rw [h3] at hf ⊢
  unfold frameO at hf ⊢
  dsimp only at hf ⊢
  obtain ⟨r, a1, a2, a3⟩ := Tick.bind_ok hf
  rw [a3]
  rw [look_two (header_seq _)] at a1 ⊢
  cases a1
  have hlen : hdrSeqIndef.length = .indefinite := rfl
  dsimp only at a2 ⊢
  rw [hlen] at a2 ⊢
  dsimp only at a2 ⊢
  obtain ⟨q, b1, b2, b3⟩ := Tick.bind_ok a2
  rw [b3, tick_free_snd]
  unfold getObjectContentO at b1 ⊢
  obtain ⟨u, c1, c2, c3⟩ := Tick.bind_ok b1
  rw [c3, h1]
  dsimp only [Tick.free]
  omega

/-- C144: the factor for the parts is real.  A SEQUENCE with `k` optional components that are all absent, given a
component of indefinite length with `n` NULLs in it (the input has `2 * n + 8` octets), counts `2 * n + 4` octets for each
of the `k` components: every attempt looks for the end of the element before it looks at the tag. -/
theorem C144_optional_octets (D : Deps) (leaf : Any → Nat) (k n : Nat) :
    (nestedIndef n 2).length = 2 * n + 8 ∧
    (Schema.sequence (List.replicate k (.optional (.explicit 0 .any)))).runO D leaf .ber (nestedIndef n 2) =
      (.ok ([], .fromSeq (List.replicate k (.fromObj .optionalNone))), 2 * n + 8 + k * (2 * n + 4)) := by
  refine ⟨by rw [nestedIndef_length], ?_⟩
  have one : (Schema.optional (.explicit 0 .any)).runO D leaf .ber (nestedIndef n 1) =
      (.ok (nestedIndef n 1, .fromObj .optionalNone), 2 * n + 4) := by
    have h := frameO_nested n 0 (by omega) []
    rw [List.append_nil] at h
    simp only [Schema.runO, optionalT, parseOptional, explicitO, containerO, h, Tick.bind]
    rfl
  have all : ∀ k, Schema.runAllO D leaf .ber (List.replicate k (.optional (.explicit 0 .any))) (nestedIndef n 1) =
      (.ok (nestedIndef n 1, List.replicate k (.fromObj .optionalNone)), k * (2 * n + 4)) := by
    intro k
    induction k with
    | zero => simp [Schema.runAllO, Tick.free]
    | succ k ih =>
      rw [List.replicate_succ, Schema.runAllO]
      simp only [one, ih, Tick.bind, Tick.free, List.replicate_succ]
      rw [Nat.add_mul, Nat.one_mul, Nat.add_comm]
      rfl
  have h := frameO_nested n 1 (by omega) []
  rw [List.append_nil] at h
  rw [Schema.runO]
  have htag : liftRes (hdrSeqIndef.assertTag Tag.sequence) = .ok () := rfl
  simp only [mapT, definedO, containerO, h, Tick.bind, all, htag, Tick.free, Nat.zero_add, Nat.add_zero]

example := C144_optional_octets Tests.D0 Tests.unitLeaf 3 2

end Verif
