import Verif.Lemmas.Der
/-!
# Combinators: framing, locality and totality
-/
namespace Verif
open Outcome

variable {E α β O T : Type} [ParseErr E]

@[simp] theorem convertErr_eq_ok {x : Outcome (NomErr BerError) α} {a : α} :
    (convertErr x : Outcome (NomErr E) α) = .ok a ↔ x = .ok a := by simp [convertErr]

@[simp] theorem returns_convertErr (x : Outcome (NomErr BerError) α) :
    (convertErr x : Outcome (NomErr E) α).Returns ↔ x.Returns := by simp [convertErr]

@[simp] theorem convertErr_ok (a : α) :
    (convertErr (.ok a) : Outcome (NomErr E) α) = .ok a := rfl

@[simp] theorem liftResE_eq_ok {x : Res α} {a : α} :
    (liftResE x : Outcome (NomErr E) α) = .ok a ↔ x = .ok a := by simp [liftResE]

@[simp] theorem returns_liftResE (x : Res α) :
    (liftResE x : Outcome (NomErr E) α).Returns ↔ x.Returns := by simp [liftResE]

@[simp] theorem liftResE_ok (a : α) : (liftResE (.ok a) : Outcome (NomErr E) α) = .ok a := rfl

theorem takeComplete_append (pre x : Bytes) :
    (takeComplete pre.length (pre ++ x) : IRes E Bytes) = .ok (x, pre) := by
  simp [takeComplete]

theorem takeComplete_ok {n : Nat} {i rem a : Bytes}
    (h : (takeComplete n i : IRes E Bytes) = .ok (rem, a)) : i = a ++ rem ∧ a.length = n := by
  unfold takeComplete at h
  split at h
  · simp at h
  · simp at h
    obtain ⟨rfl, rfl⟩ := h
    simp; omega

theorem local_takeComplete (n : Nat) : Local (takeComplete n : Bytes → IRes E Bytes) := by
  intro i rem a h
  obtain ⟨rfl, rfl⟩ := takeComplete_ok h
  exact ⟨a, rfl, fun x => takeComplete_append a x⟩

theorem returns_takeComplete (n : Nat) (i : Bytes) :
    (takeComplete n i : IRes E Bytes).Returns := by
  unfold takeComplete; split <;> simp

/-- The content part of `frame`. -/
def frameContent (R : Rules) (h : Header) (i : Bytes) : IRes E Bytes :=
  match R, h.length with
  | _, .definite len => takeComplete len i
  | .ber, .indefinite => convertErr (getObjectContent maxRecursion h i)
  | .der, .indefinite => .err (.error (ParseErr.ofBer (.derConstraintFailed .indefiniteLength)))

/-- The header part of `frame`. -/
def frameHeader (R : Rules) (i : Bytes) : IRes BerError Header :=
  match R with
  | .ber => headerFromBer i
  | .der => headerFromDer i

theorem frame_eq (R : Rules) (i : Bytes) : (frame R i : IRes E (Header × Bytes)) =
    (convertErr (frameHeader R i) >>? fun r =>
      frameContent R r.2 r.1 >>? fun s => .ok (s.1, (r.2, s.2))) := by
  cases R
  · simp only [frame, frameHeader]
    congr 1; funext r
    cases h : r.2.length <;> simp [frameContent, h]
  · simp only [frame, frameHeader]
    congr 1; funext r
    cases h : r.2.length <;> simp [frameContent, h]

theorem local_frameHeader (R : Rules) : Local (frameHeader R) := by
  cases R
  · exact local_headerFromBer
  · exact local_headerFromDer

theorem frameHeader_pos {R : Rules} {i rem : Bytes} {h : Header}
    (e : frameHeader R i = .ok (rem, h)) : rem.length + 2 ≤ i.length := by
  cases R
  · exact headerFromBer_pos e
  · exact headerFromDer_pos e

theorem returns_frameHeader (R : Rules) (i : Bytes) : (frameHeader R i).Returns := by
  cases R
  · exact returns_headerFromBer i
  · exact returns_headerFromDer i

theorem local_frameContent (R : Rules) (h : Header) :
    Local (frameContent R h : Bytes → IRes E Bytes) := by
  cases R <;> cases hl : h.length
  · rename_i n
    exact (local_takeComplete n).congr fun i => by simp only [frameContent, hl]
  · exact ((local_getObjectContent maxRecursion h).mapErr _).congr fun i => by
      simp only [frameContent, hl]; rfl
  · rename_i n
    exact (local_takeComplete n).congr fun i => by simp only [frameContent, hl]
  · exact (Local.err (.error (ParseErr.ofBer (.derConstraintFailed .indefiniteLength)))).congr
      fun i => by simp only [frameContent, hl]

theorem returns_frameContent (R : Rules) (h : Header) (i : Bytes) :
    (frameContent R h i : IRes E Bytes).Returns := by
  unfold frameContent
  split
  · exact returns_takeComplete _ _
  · simpa using returns_getObjectContent _ _ _
  · simp

theorem local_frame (R : Rules) : Local (frame R : Bytes → IRes E (Header × Bytes)) := by
  refine Local.congr ?_ (frame_eq R)
  exact ((local_frameHeader R).mapErr (NomErr.map ParseErr.ofBer)).bind
    (f := fun h i => frameContent R h i >>? fun s => .ok (s.1, (h, s.2))) fun h =>
    (local_frameContent R h).bind (f := fun s i => .ok (i, (h, s))) fun _ => Local.ok _

theorem returns_frame (R : Rules) (i : Bytes) : (frame R i : IRes E (Header × Bytes)).Returns := by
  rw [frame_eq]
  exact returns_bind (by simpa using returns_frameHeader R i) fun _ _ =>
    returns_bind (returns_frameContent _ _ _) fun _ _ => by simp

theorem frame_ok {R : Rules} {i rem : Bytes} {h : Header} {c : Bytes}
    (e : (frame R i : IRes E (Header × Bytes)) = .ok (rem, (h, c))) :
    ∃ i1, frameHeader R i = .ok (i1, h) ∧
      (frameContent R h i1 : IRes E Bytes) = .ok (rem, c) := by
  rw [frame_eq] at e
  obtain ⟨⟨i1, h'⟩, h1, h2⟩ := bind_eq_ok.1 e
  obtain ⟨⟨i2, c'⟩, h3, h4⟩ := bind_eq_ok.1 h2
  simp at h4 h1
  obtain ⟨rfl, rfl, rfl⟩ := h4
  exact ⟨i1, h1, h3⟩

theorem frame_pos {R : Rules} {i rem : Bytes} {x : Header × Bytes}
    (e : (frame R i : IRes E (Header × Bytes)) = .ok (rem, x)) : rem.length + 2 ≤ i.length := by
  obtain ⟨h, c⟩ := x
  obtain ⟨i1, h1, h2⟩ := frame_ok e
  have := frameHeader_pos h1
  have := (local_frameContent R h).length_le h2
  omega

theorem frame_content_len {R : Rules} {i rem : Bytes} {h : Header} {c : Bytes}
    (e : (frame R i : IRes E (Header × Bytes)) = .ok (rem, (h, c))) :
    rem.length + c.length + 2 ≤ i.length := by
  obtain ⟨i1, h1, h2⟩ := frame_ok e
  have h3 := frameHeader_pos h1
  unfold frameContent at h2
  split at h2
  · obtain ⟨rfl, _⟩ := takeComplete_ok h2
    simp at h3; omega
  · obtain ⟨pre, b, rfl, h4, rfl⟩ := getObjectContent_ok (convertErr_eq_ok.1 h2)
    simp only [List.length_append] at h3
    have : (contentOf h pre).length ≤ pre.length := by
      unfold contentOf; split <;> simp
    omega
  · simp at h2

theorem container_ok {R : Rules} {f : Bytes → Header → IRes E O} {i rem : Bytes} {v : O} :
    container R f i = .ok (rem, v) ↔ ∃ h c rem', frame (E := E) R i = .ok (rem, (h, c)) ∧
      f c h = .ok (rem', v) := by
  unfold container
  constructor
  · intro e
    obtain ⟨⟨rem1, h, c⟩, h1, h2⟩ := bind_eq_ok.1 e
    obtain ⟨⟨rem', v'⟩, h3, h4⟩ := bind_eq_ok.1 h2
    simp at h4
    obtain ⟨rfl, rfl⟩ := h4
    exact ⟨h, c, rem', h1, h3⟩
  · rintro ⟨h, c, rem', h1, h2⟩
    simp [h1, h2]

theorem local_container (R : Rules) (f : Bytes → Header → IRes E O) : Local (container R f) := by
  refine (local_frame R).bind (f := fun s i => f s.2 s.1 >>? fun v => .ok (i, v.2)) fun s => ?_
  exact Local.guard (f := fun (v : Bytes × O) i => .ok (i, v.2)) fun _ _ => Local.ok _

/-- `container` returns when the closure returns on the content slice. -/
theorem returns_container (R : Rules) {f : Bytes → Header → IRes E O} {i : Bytes}
    (hf : ∀ rem h c, frame (E := E) R i = .ok (rem, (h, c)) → (f c h).Returns) :
    (container R f i).Returns := by
  refine returns_bind (returns_frame R i) fun r h => ?_
  obtain ⟨rem, h', c⟩ := r
  exact returns_bind (hf _ _ _ h) fun _ _ => by simp

theorem returns_complete_cut {f : Bytes → IRes E T} {i : Bytes} (hf : (f i).Returns) :
    (complete (cut f) i).Returns := by
  unfold complete cut
  cases h : f i with
  | ok r => simp
  | err e => cases e <;> simp
  | panic => simp [h] at hf
  | diverge => simp [h] at hf

theorem complete_cut_ok {f : Bytes → IRes E T} {i : Bytes} {r : Bytes × T} :
    complete (cut f) i = .ok r ↔ f i = .ok r := by
  unfold complete cut
  cases h : f i with
  | ok r => simp
  | err e => cases e <;> simp
  | panic => simp
  | diverge => simp

theorem returns_many0 {p : Bytes → IRes E T} {n fuel : Nat} {i : Bytes} (hn : i.length ≤ n)
    (hp : ∀ j, j.length ≤ n → (p j).Returns)
    (hl : ∀ j rem a, j.length ≤ n → p j = .ok (rem, a) → rem.length ≤ j.length)
    (hf : i.length < fuel) : (many0 p fuel i).Returns := by
  induction fuel generalizing i with
  | zero => omega
  | succ fuel ih =>
    have h1 := hp i hn
    unfold many0
    split
    · simp
    · simp
    · rename_i h; simp [h] at h1
    · rename_i h; simp [h] at h1
    · rename_i r h
      have := hl i r.1 r.2 hn h
      split
      · simp
      · exact returns_bind (ih (by omega) (by omega)) fun _ _ => by simp

theorem returns_ofSubparser {f : Bytes → IRes E T} {data : Bytes}
    (hp : ∀ j, j.length ≤ data.length → (f j).Returns)
    (hl : ∀ j rem a, j.length ≤ data.length → f j = .ok (rem, a) → rem.length ≤ j.length) :
    (ofSubparser f data).Returns := by
  unfold ofSubparser allConsuming
  refine returns_bind (returns_many0 (n := data.length) (Nat.le_refl _)
    (fun j hj => returns_complete_cut (hp j hj))
    (fun j rem a hj h => hl j rem a hj (complete_cut_ok.1 h)) (by omega)) fun r _ => ?_
  split <;> simp

end Verif
