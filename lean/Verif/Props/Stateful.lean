import Verif.Stateful
import Verif.Props.Combinators
/-!
# Closures with state: C74
-/
namespace Verif
open Outcome Spec

section
variable {σ E O T : Type} [ParseErr E]

namespace Spec

/-- Successive calls of `f`: the first on `i` in state `s`, each of the others on the remainder and in
the state the one before left; all succeed, with values `vs`, and make progress. -/
inductive Run (f : SFn σ Bytes E T) : σ → Bytes → List T → σ → Bytes → Prop
  | done (s : σ) (i : Bytes) : Run f s i [] s i
  | step {s i r v s' vs s'' j} : f s i = (.ok (r, v), s') → r.length < i.length →
      Run f s' r vs s'' j → Run f s i (v :: vs) s'' j

/-- The answer `x` of a call on `j` that ends the repetition after the values `vs`, and the answer
`y` of the repetition. -/
inductive Stop (j : Bytes) (vs : List T) : IRes E T → IRes E (List T) → Prop
  | finished (n) : j = [] → Stop j vs (.err (.incomplete n)) (.ok ([], vs))
  | truncated (n) : j ≠ [] → Stop j vs (.err (.incomplete n)) (.err (.error (ParseErr.ofKind j .eof)))
  | error (e) : Stop j vs (.err (.error e)) (.err (.failure e))
  | failure (e) : Stop j vs (.err (.failure e)) (.err (.failure e))
  | noProgress (r v) : r.length = j.length →
      Stop j vs (.ok (r, v)) (.err (.error (ParseErr.ofKind j .many0)))
  | panic : Stop j vs .panic .panic
  | diverge : Stop j vs .diverge .diverge

/-- `f` never answers with a remainder longer than its input (see C04). -/
def NoLonger (f : SFn σ Bytes E T) : Prop :=
  ∀ s i r v s', f s i = (.ok (r, v), s') → r.length ≤ i.length

end Spec

/-! ## Repetition -/

theorem many0S_run (f : SFn σ Bytes E T) (hf : NoLonger f) (fuel : Nat) (s : σ) (i : Bytes)
    (hl : i.length < fuel) :
    ∃ vs s' j x s'' y, Run f s i vs s' j ∧ f s' j = (x, s'') ∧ Stop j vs x y ∧
      ((many0S (completeS (cutS f)) fuel s i).1 >>? fun r =>
        match r.1 with
        | [] => .ok r
        | _ :: _ => .err (.error (ParseErr.ofKind r.1 .eof))) = y ∧
      (many0S (completeS (cutS f)) fuel s i).2 = s'' := by
  induction fuel generalizing s i with
  | zero => omega
  | succ fuel ih =>
    rcases hx : f s i with ⟨x, s'⟩
    cases x with
    | err e =>
      cases e with
      | incomplete n =>
        cases hi : i with
        | nil =>
          subst hi
          exact ⟨[], s, [], _, s', _, .done s [], hx, .finished n rfl, by
            simp [many0S, completeS, cutS, hx], by simp [many0S, completeS, cutS, hx]⟩
        | cons b bs =>
          subst hi
          exact ⟨[], s, b :: bs, _, s', _, .done s _, hx, .truncated n (by simp), by
            simp [many0S, completeS, cutS, hx], by simp [many0S, completeS, cutS, hx]⟩
      | error e =>
        exact ⟨[], s, i, _, s', _, .done s _, hx, .error e, by
          simp [many0S, completeS, cutS, hx], by simp [many0S, completeS, cutS, hx]⟩
      | failure e =>
        exact ⟨[], s, i, _, s', _, .done s _, hx, .failure e, by
          simp [many0S, completeS, cutS, hx], by simp [many0S, completeS, cutS, hx]⟩
    | panic =>
      exact ⟨[], s, i, _, s', _, .done s _, hx, .panic, by
        simp [many0S, completeS, cutS, hx], by simp [many0S, completeS, cutS, hx]⟩
    | diverge =>
      exact ⟨[], s, i, _, s', _, .done s _, hx, .diverge, by
        simp [many0S, completeS, cutS, hx], by simp [many0S, completeS, cutS, hx]⟩
    | ok r =>
      obtain ⟨r, v⟩ := r
      have hle := hf s i r v s' hx
      by_cases hr : r.length = i.length
      · exact ⟨[], s, i, _, s', _, .done s _, hx, .noProgress r v hr, by
          simp [many0S, completeS, cutS, hx, hr], by simp [many0S, completeS, cutS, hx, hr]⟩
      · obtain ⟨vs, s1, j, x, s2, y, h1, h2, h3, h4, h5⟩ := ih s' r (by omega)
        have h6 : many0S (completeS (cutS f)) (fuel + 1) s i =
            ((many0S (completeS (cutS f)) fuel s' r).1 >>? fun u => .ok (u.1, v :: u.2),
              (many0S (completeS (cutS f)) fuel s' r).2) := by
          simp [many0S, completeS, cutS, hx, hr]
        have hrun : Run f s i (v :: vs) s1 j := .step hx (by omega) h1
        rw [h6]
        generalize many0S (completeS (cutS f)) fuel s' r = t at h4 h5 ⊢
        obtain ⟨t1, t2⟩ := t
        simp only at h4 h5 ⊢
        refine ⟨v :: vs, s1, j, x, s2, _, hrun, h2, ?_, rfl, h5⟩
        subst h4
        clear h1 h2 hrun h6 ih
        generalize hy : (t1 >>? fun r => _) = y at h3
        cases h3 with
        | finished n hj =>
          obtain ⟨⟨a, b⟩, rfl, h⟩ := bind_eq_ok.1 hy
          cases a with
          | nil => simp at h; subst h; exact .finished n hj
          | cons => simp at h
        | truncated n hj =>
          rcases bind_eq_err.1 hy with rfl | ⟨⟨a, b⟩, rfl, h⟩
          · exact .truncated n hj
          · cases a with
            | nil => simp at h
            | cons => simp only at h; simp only [ok_bind, h]; exact .truncated n hj
        | error e =>
          rcases bind_eq_err.1 hy with rfl | ⟨⟨a, b⟩, rfl, h⟩
          · exact .error e
          · cases a <;> simp at h
        | failure e =>
          rcases bind_eq_err.1 hy with rfl | ⟨⟨a, b⟩, rfl, h⟩
          · exact .failure e
          · cases a <;> simp at h
        | noProgress r' v' hr' =>
          rcases bind_eq_err.1 hy with rfl | ⟨⟨a, b⟩, rfl, h⟩
          · exact .noProgress r' v' hr'
          · cases a with
            | nil => simp at h
            | cons => simp only at h; simp only [ok_bind, h]; exact .noProgress r' v' hr'
        | panic =>
          cases t1 with
          | ok r => obtain ⟨a, b⟩ := r; cases a <;> simp at hy
          | err => simp at hy
          | panic => exact .panic
          | diverge => simp at hy
        | diverge =>
          cases t1 with
          | ok r => obtain ⟨a, b⟩ := r; cases a <;> simp at hy
          | err => simp at hy
          | panic => simp at hy
          | diverge => exact .diverge

theorem stop_no_step {j : Bytes} {vs : List T} {r : Bytes} {v : T} {y : IRes E (List T)}
    (h : Stop j vs (.ok (r, v)) y) : ¬ r.length < j.length := by
  cases h; omega

omit [ParseErr E] in
theorem run_unique {f : SFn σ Bytes E T} {s : σ} {i j j' : Bytes} {vs vs' : List T} {s1 s1' : σ}
    (h : Run f s i vs s1 j) (h' : Run f s i vs' s1' j')
    (hx : ∀ r v s2, f s1 j = (.ok (r, v), s2) → ¬ r.length < j.length)
    (hx' : ∀ r v s2, f s1' j' = (.ok (r, v), s2) → ¬ r.length < j'.length) :
    vs = vs' ∧ s1 = s1' ∧ j = j' := by
  induction h generalizing vs' with
  | done s i =>
    cases h' with
    | done => exact ⟨rfl, rfl, rfl⟩
    | step h1 h2 _ => exact absurd h2 (hx _ _ _ h1)
  | step h1 h2 h3 ih =>
    cases h' with
    | done => exact absurd h2 (hx' _ _ _ h1)
    | step k1 k2 k3 =>
      rw [h1] at k1
      simp only [Prod.mk.injEq, ok.injEq] at k1
      obtain ⟨⟨rfl, rfl⟩, rfl⟩ := k1
      obtain ⟨rfl, rfl, rfl⟩ := ih k3 hx
      exact ⟨rfl, rfl, rfl⟩

theorem stop_unique {j : Bytes} {vs : List T} {x : IRes E T} {y y' : IRes E (List T)}
    (h : Stop j vs x y) (h' : Stop j vs x y') : y = y' := by
  cases h <;> cases h' <;> first | rfl | contradiction

/-- A closure that accepts an octet only if it is larger than the one before. -/
def Spec.ascending : SFn UInt8 Bytes BerError UInt8 := fun s i =>
  match i with
  | [] => (.err (.incomplete (.size 1)), s)
  | b :: r => if s < b then (.ok (r, b), b) else (.err (.error .berValueError), s)

theorem ascending_noLonger : NoLonger ascending := by
  intro s i r v s' h
  cases i with
  | nil => simp [ascending] at h
  | cons b i =>
    simp only [ascending] at h
    split at h
    · simp only [Prod.mk.injEq, ok.injEq] at h; rw [← h.1.1]; simp
    · simp at h

/-- C74: the repetition of `parse_*_sequence_of_v`/`parse_*_set_of_v` calls the closure on the contents,
then on each remainder in turn, every call in the state the one before left, as long as calls
succeed and make progress; the first other call is the last one, and determines the answer and the
final state. -/
theorem C74_repetition (f : SFn σ Bytes E T) (hf : NoLonger f) (s s'' : σ) (c : Bytes)
    (y : IRes E (List T)) :
    ofSubparserS f s c = (y, s'') ↔
      ∃ vs s' j x, Run f s c vs s' j ∧ f s' j = (x, s'') ∧ Stop j vs x y := by
  obtain ⟨vs, s', j, x, s2, y', h1, h2, h3, h4, h5⟩ := many0S_run f hf (c.length + 1) s c (by omega)
  have h6 : ofSubparserS f s c = (y', s2) := by
    unfold ofSubparserS allConsumingS
    exact Prod.ext h4 h5
  rw [h6]
  constructor
  · intro h
    obtain ⟨rfl, rfl⟩ := Prod.mk.inj h
    exact ⟨vs, s', j, x, h1, h2, h3⟩
  · rintro ⟨ws, t, k, z, g1, g2, g3⟩
    obtain ⟨rfl, rfl, rfl⟩ := run_unique h1 g1
      (fun r v s3 h => by rw [h2] at h; obtain ⟨rfl, -⟩ := Prod.mk.inj h; exact stop_no_step h3)
      (fun r v s3 h => by rw [g2] at h; obtain ⟨rfl, -⟩ := Prod.mk.inj h; exact stop_no_step g3)
    rw [h2] at g2
    obtain ⟨rfl, rfl⟩ := Prod.mk.inj g2
    rw [stop_unique h3 g3]

example := (C74_repetition ascending ascending_noLonger 0 5 [1, 2, 5] (.ok ([], [1, 2, 5]))).1 rfl

/-! ## One call -/

/-- A closure that counts its calls and adds up the contents octets. -/
def Spec.adding : SFn Nat (Bytes × Header) BerError Nat := fun n x => (.ok ([], (x.1.map (·.toNat)).sum), n + 1)

/-- C74: `parse_*_container` calls the closure exactly once, on the contents and header of the element, in
the current state. -/
theorem C74_container (R : Rules) (f : SFn σ (Bytes × Header) E O) (s : σ) (i rem c : Bytes) (h : Header)
    (hF : FramedBy R i rem h c) :
    containerS R f s i = ((f s (c, h)).1 >>? fun r => .ok (rem, r.2), (f s (c, h)).2) := by
  unfold containerS
  rw [frame_iff.2 hF]

example := C74_container .ber adding 0 [0x30, 0x02, 3, 4, 9] [9] _ _ ((frame_iff (E := BerError)).1 rfl)

/-- C74: without an element the closure is not called: the state is unchanged, and the answer is an error
that does not depend on it. -/
theorem C74_container_not_called (R : Rules) (f g : SFn σ (Bytes × Header) E O) (s : σ) (i : Bytes)
    (hN : ¬ ∃ rem h c, FramedBy R i rem h c) :
    containerS R f s i = containerS R g s i ∧ ∃ e, containerS R f s i = (.err e, s) := by
  unfold containerS
  cases hf : (frame R i : IRes E (Header × Bytes)) with
  | ok r =>
    obtain ⟨rem, h, c⟩ := r
    exact absurd ⟨rem, h, c, frame_iff.1 hf⟩ hN
  | err e => exact ⟨rfl, e, rfl⟩
  | panic => have := returns_frame (E := E) R i; rw [hf] at this; exact absurd this id
  | diverge => have := returns_frame (E := E) R i; rw [hf] at this; exact absurd this id

/-- The element is cut. -/
example := C74_container_not_called .ber adding adding 7 [0x30, 0x02, 3] (by
  rintro ⟨rem, h, c, hF⟩
  cases (frame_iff (E := BerError)).2 hF)

/-- C74: `*_defined_g` call the closure once if the tag number is right, otherwise not at all. -/
theorem C74_defined (R : Rules) (tag : Nat) (f : SFn σ (Bytes × Header) E O) (s : σ) (i rem c : Bytes)
    (h : Header) (hF : FramedBy R i rem h c) :
    definedGS R tag f s i =
      if h.tag = tag then ((f s (c, h)).1 >>? fun r => .ok (rem, r.2), (f s (c, h)).2)
      else (.err (.error (ParseErr.ofBer (.unexpectedTag (some tag) h.tag))), s) := by
  unfold definedGS
  rw [C74_container R _ s i rem c h hF]
  unfold checkedS Header.assertTag
  by_cases ht : h.tag = tag
  · simp [ht, liftResE]
  · simp [ht, liftResE]

example := C74_defined .ber 16 adding 0 [0x30, 0x02, 3, 4, 9] [9] _ _ ((frame_iff (E := BerError)).1 rfl)

/-- C74: `*_tagged_explicit_g`: once if the element is constructed, not universal, and has the tag
number, otherwise not at all. -/
theorem C74_tagged_explicit (R : Rules) (tag : Nat) (f : SFn σ (Bytes × Header) E O) (s : σ)
    (i rem c : Bytes) (h : Header) (hF : FramedBy R i rem h c) :
    (h.cls ≠ .universal ∧ h.tag = tag ∧ h.constructed = true →
      taggedExplicitGS R tag f s i = ((f s (c, h)).1 >>? fun r => .ok (rem, r.2), (f s (c, h)).2)) ∧
    (¬ (h.cls ≠ .universal ∧ h.tag = tag ∧ h.constructed = true) →
      ∃ e, taggedExplicitGS R tag f s i = (.err (.error e), s)) := by
  unfold taggedExplicitGS
  rw [C74_container R _ s i rem c h hF]
  unfold checkedS Header.assertTag Header.assertConstructed
  by_cases h1 : h.cls = .universal
  · simp [h1]
  · by_cases h2 : h.tag = tag
    · cases h3 : h.constructed <;> simp [h1, h2, h3, liftResE]
    · simp [h1, h2, liftResE]

example := (C74_tagged_explicit .der 1 adding 0 [0xa1, 0x02, 3, 4, 9] [9] _ _ ((frame_iff (E := BerError)).1 rfl)).1
  ⟨by decide, rfl, rfl⟩

/-- C74: `*_tagged_implicit_g`: once if the element has the tag number, otherwise not at all. -/
theorem C74_tagged_implicit (R : Rules) (tag : Nat) (f : SFn σ (Bytes × Header × Nat) E O) (s : σ)
    (i rem c : Bytes) (h : Header) (hF : FramedBy R i rem h c) :
    taggedImplicitGS R tag f s i =
      if h.tag = tag then ((f s (c, h, 50)).1 >>? fun r => .ok (rem, r.2), (f s (c, h, 50)).2)
      else (.err (.error (ParseErr.ofBer (.unexpectedTag (some tag) h.tag))), s) := by
  unfold taggedImplicitGS
  rw [C74_container R _ s i rem c h hF]
  unfold checkedS Header.assertTag
  by_cases ht : h.tag = tag
  · simp [ht, liftResE, maxRecursion]
  · simp [ht, liftResE]

example := C74_tagged_implicit .der 1 (fun n x => adding n (x.1, x.2.1)) 0 [0x81, 0x02, 3, 4, 9] [9] _ _
  ((frame_iff (E := BerError)).1 rfl)

omit [ParseErr E] in
/-- C74: `parse_ber_optional` calls the closure exactly once and keeps its state also when the answer is
`None`: effects of the failed attempt remain. -/
theorem C74_optional (f : SFn σ Bytes BerError BerObject) (s : σ) (i : Bytes) :
    (parseOptionalS f s i).2 = (f s i).2 ∧
      (parseOptionalS f s i).1 = parseOptional (fun j => (f s j).1) i := by
  unfold parseOptionalS parseOptional
  simp only
  rcases f s i with ⟨x, s'⟩
  cases x <;> exact ⟨rfl, rfl⟩

/-! ## Sequences -/

/-- C74: success of `parse_*_sequence_of_v`/`parse_*_set_of_v`: all contents octets are read by successive
calls; then there is one more call, on the empty remainder, which must answer `Incomplete`. -/
theorem C74_of_v_ok (R : Rules) (tag : Nat) (f : SFn σ Bytes E T) (hf : NoLonger f) (s s'' : σ)
    (i rem : Bytes) (vs : List T) :
    ofVS R tag f s i = (.ok (rem, vs), s'') ↔
      ∃ h c s' n, FramedBy R i rem h c ∧ h.tag = tag ∧ Run f s c vs s' [] ∧
        f s' [] = (.err (.incomplete n), s'') := by
  constructor
  · intro hh
    by_cases hN : ∃ rem h c, FramedBy R i rem h c
    · obtain ⟨rem', h, c, hF⟩ := hN
      unfold ofVS at hh
      rw [C74_defined R tag _ s i rem' c h hF] at hh
      split at hh
      · rename_i ht
        rcases hy : ofSubparserS f s c with ⟨y, t⟩
        simp only [hy] at hh
        obtain ⟨h1, rfl⟩ := Prod.mk.inj hh
        obtain ⟨⟨r, ws⟩, rfl, h2⟩ := bind_eq_ok.1 h1
        simp only [ok.injEq, Prod.mk.injEq] at h2
        obtain ⟨rfl, rfl⟩ := h2
        obtain ⟨us, s', j, x, g1, g2, g3⟩ := (C74_repetition f hf s t c _).1 hy
        cases g3 with
        | finished n hj => subst hj; exact ⟨h, c, s', n, hF, ht, g1, g2⟩
      · simp at hh
    · obtain ⟨-, e, he⟩ := C74_container_not_called R
        (checkedS (fun hdr => liftResE (hdr.assertTag tag)) fun s x => ofSubparserS f s x.1)
        (checkedS (fun hdr => liftResE (hdr.assertTag tag)) fun s x => ofSubparserS f s x.1) s i hN
      unfold ofVS definedGS at hh
      rw [he] at hh
      simp at hh
  · rintro ⟨h, c, s', n, hF, ht, h1, h2⟩
    unfold ofVS
    rw [C74_defined R tag _ s i rem c h hF, if_pos ht]
    simp only
    rw [(C74_repetition f hf s s'' c (.ok ([], vs))).2 ⟨vs, s', [], _, h1, h2, .finished n rfl⟩]
    rfl

example := (C74_of_v_ok .ber 16 ascending ascending_noLonger 0 5 [0x30, 0x03, 1, 2, 5, 0xff] [0xff] [1, 2, 5]).1 (by decide +kernel)

/-- C74: every other answer of `parse_*_sequence_of_v`/`parse_*_set_of_v` on an element with the right tag
number: the state is that of the call that ended the repetition. -/
theorem C74_of_v (R : Rules) (tag : Nat) (f : SFn σ Bytes E T) (hf : NoLonger f) (s : σ)
    (i rem c : Bytes) (h : Header) (hF : FramedBy R i rem h c) (ht : h.tag = tag) :
    ∃ vs s' j y, Run f s c vs s' j ∧ Stop j vs (f s' j).1 y ∧
      ofVS R tag f s i = (y >>? fun r => .ok (rem, r.2), (f s' j).2) := by
  obtain ⟨vs, s', j, x, h1, h2, h3⟩ := (C74_repetition f hf s _ c _).1 (rfl : ofSubparserS f s c = (_, _))
  refine ⟨vs, s', j, _, h1, by rw [h2]; exact h3, ?_⟩
  unfold ofVS
  rw [C74_defined R tag _ s i rem c h hF, if_pos ht, h2]
  rfl

/-- The third octet is refused. -/
example := C74_of_v .ber 16 ascending ascending_noLonger 0 [0x30, 0x03, 1, 5, 2, 0xff] [0xff] _ _ ((frame_iff (E := BerError)).1 rfl) rfl

/-! ## Closures whose answers do not depend on the state -/

theorem completeS_stateless {f : SFn σ Bytes E T} {p : Bytes → IRes E T} (h : ∀ s i, (f s i).1 = p i)
    (s : σ) (i : Bytes) : (completeS (cutS f) s i).1 = complete (cut p) i := by
  unfold completeS cutS complete cut
  rw [← h s i]
  rcases f s i with ⟨x, s'⟩
  cases x with
  | err e => cases e <;> rfl
  | _ => rfl

theorem many0S_stateless {f : SFn σ Bytes E T} {p : Bytes → IRes E T} (h : ∀ s i, (f s i).1 = p i)
    (fuel : Nat) (s : σ) (i : Bytes) : (many0S f fuel s i).1 = many0 p fuel i := by
  induction fuel generalizing s i with
  | zero => rfl
  | succ fuel ih =>
    simp only [many0S, many0]
    rw [← h s i]
    rcases f s i with ⟨x, s'⟩
    cases x with
    | ok r =>
      simp only
      split
      · rfl
      · rw [ih]
    | err e => cases e <;> rfl
    | panic => rfl
    | diverge => rfl

theorem ofSubparserS_stateless {f : SFn σ Bytes E T} {p : Bytes → IRes E T}
    (h : ∀ s i, (f s i).1 = p i) (s : σ) (i : Bytes) : (ofSubparserS f s i).1 = ofSubparser p i := by
  unfold ofSubparserS ofSubparser allConsumingS allConsuming
  simp only
  rw [many0S_stateless (completeS_stateless h)]
  rfl

theorem containerS_stateless (R : Rules) {f : SFn σ (Bytes × Header) E O} {p : Bytes → Header → IRes E O}
    (h : ∀ s c hd, (f s (c, hd)).1 = p c hd) (s : σ) (i : Bytes) :
    (containerS R f s i).1 = container R p i := by
  unfold containerS container
  cases (frame R i : IRes E (Header × Bytes)) with
  | ok r => simp only [ok_bind]; rw [h]
  | _ => rfl

omit [ParseErr E] in
theorem checkedS_fst {α : Type} (k : Header → Outcome (NomErr E) α) (f : SFn σ (Bytes × Header) E O)
    (s : σ) (c : Bytes) (hd : Header) :
    (checkedS k f s (c, hd)).1 = (k hd >>? fun _ => (f s (c, hd)).1) := by
  unfold checkedS
  simp only
  cases k hd <;> rfl

/-- C74: when the answers of the closure do not depend on its state (for example it only counts its
calls), the answers of the combinators are those for closures without state; all properties of
C37 to C42 hold for them. -/
theorem C74_stateless (R : Rules) (tag : Nat) :
    (∀ (f : SFn σ Bytes E T) p, (∀ s i, (f s i).1 = p i) → ∀ s i, (ofVS R tag f s i).1 = ofV R tag p i) ∧
    (∀ (f : SFn σ (Bytes × Header) E O) p, (∀ s c hd, (f s (c, hd)).1 = p c hd) → ∀ s i,
      (containerS R f s i).1 = container R p i ∧
      (definedGS R tag f s i).1 = definedG R tag p i ∧
      (taggedExplicitGS R tag f s i).1 = taggedExplicitG R tag p i) ∧
    (∀ (f : SFn σ (Bytes × Header × Nat) E O) p, (∀ s c hd n, (f s (c, hd, n)).1 = p c hd n) → ∀ s i,
      (taggedImplicitGS R tag f s i).1 = taggedImplicitG R tag p i) ∧
    (∀ (f : SFn σ Bytes BerError (List BerObject)) p, (∀ s i, (f s i).1 = p i) → ∀ s i,
      (sequenceDefinedS R f s i).1 = sequenceDefined R p i ∧
      (setDefinedS R f s i).1 = setDefined R p i) ∧
    (∀ (f : SFn σ Bytes BerError BerObject) p, (∀ s i, (f s i).1 = p i) → ∀ s i,
      (parseOptionalS f s i).1 = parseOptional p i) := by
  refine ⟨?_, ?_, ?_, ?_, ?_⟩
  · intro f p h s i
    unfold ofVS ofV definedGS definedG
    refine containerS_stateless R (fun s c hd => ?_) s i
    rw [checkedS_fst]
    simp only [ofSubparserS_stateless h]
  · intro f p h s i
    refine ⟨containerS_stateless R h s i, ?_, ?_⟩
    · exact containerS_stateless R (fun s c hd => by rw [checkedS_fst, h]) s i
    · refine containerS_stateless R (fun s c hd => ?_) s i
      rw [checkedS_fst, h]
      split
      · rfl
      · rw [bind_assoc']
  · intro f p h s i
    exact containerS_stateless R (fun s c hd => by rw [checkedS_fst, h]) s i
  · intro f p h s i
    have key : ∀ tag s i, (definedGS R tag (fun s (x : Bytes × Header) => f s x.1) s i).1 =
        definedG R tag (fun data _ => p data) i := fun tag s i =>
      containerS_stateless R (fun s c hd => by rw [checkedS_fst]; simp only [h]) s i
    unfold sequenceDefinedS setDefinedS sequenceDefined setDefined mapResS mapRes
    simp only [key]
    exact ⟨trivial, trivial⟩
  · intro f p h s i
    rw [(C74_optional f s i).2]
    congr 1
    funext j
    exact h s j

/-- A count of the calls. -/
example := (C74_stateless (σ := Nat) (E := BerError) (T := BerObject) (O := BerObject) .ber 16).1
  (fun n j => (parseBerWithTag Tests.D0 2 j, n + 1)) (parseBerWithTag Tests.D0 2) (fun _ _ => rfl)

/-! ## The log of calls -/

/-- The arguments of the successive calls of `p` that read `i` to its end, and the empty remainder. -/
inductive Spec.CallsOn (p : Bytes → IRes E T) : Bytes → List Bytes → Prop
  | last : CallsOn p [] [[]]
  | call {i r v ls} : p i = .ok (r, v) → CallsOn p r ls → CallsOn p i (i :: ls)

/-- C74 in full: a closure that writes down its arguments is called, by a successful `*_of_v`, once for
each element, on the successive remainders. -/
def C74Statement : Prop :=
  ∀ (E T : Type) [ParseErr E] (R : Rules) (tag : Nat) (p : Bytes → IRes E T) (i rem : Bytes)
    (vs : List T) (log : List Bytes),
    (∀ j r v, p j = .ok (r, v) → r.length ≤ j.length) →
    ofVS R tag (fun (l : List Bytes) j => (p j, l ++ [j])) [] i = (.ok (rem, vs), log) →
    log.length = vs.length

/-- C74 is false: there is one call more than elements, on the empty remainder. -/
theorem C74_extra_call_counterexample : ¬ C74Statement := by
  intro h
  let p : Bytes → IRes BerError UInt8 := fun j =>
    match j with
    | [] => .err (.incomplete (.size 1))
    | b :: r => .ok (r, b)
  have hp : ∀ j r v, p j = .ok (r, v) → r.length ≤ j.length := by
    intro j r v hh
    cases j with
    | nil => simp [p] at hh
    | cons b r' =>
      simp only [p, ok.injEq, Prod.mk.injEq] at hh
      rw [← hh.1]; simp
  have := h BerError UInt8 .ber 16 p [0x30, 0x01, 0x41] [] [0x41] [[0x41], []] hp rfl
  cases this

omit [ParseErr E] in
theorem run_log {p : Bytes → IRes E T} {l l' : List Bytes} {i j : Bytes} {vs : List T}
    (h : Run (fun (l : List Bytes) j => (p j, l ++ [j])) l i vs l' j) (hj : j = []) :
    Chain p i vs ∧ ∃ ls, l' ++ [[]] = l ++ ls ∧ CallsOn p i ls ∧ ls.length = vs.length + 1 := by
  induction h with
  | done s i => subst hj; exact ⟨.nil, [[]], rfl, .last, rfl⟩
  | @step s i r v s' vs s'' j h1 h2 h3 ih =>
    obtain ⟨g1, rfl⟩ := Prod.mk.inj h1
    obtain ⟨h4, ls, h5, h6, h7⟩ := ih hj
    refine ⟨.cons _ _ _ _ g1 h2 h4, i :: ls, by rw [h5]; simp, .call g1 h6, by simp [h7]⟩

/-- C74, what holds: the calls of a successful `*_of_v` are made on the successive remainders, once each,
in order, and then once more on the empty remainder.  Missing: the last call is not for an element. -/
theorem C74_calls_partial (R : Rules) (tag : Nat) (p : Bytes → IRes E T) (i rem : Bytes)
    (vs : List T) (log : List Bytes) (hp : ∀ j r v, p j = .ok (r, v) → r.length ≤ j.length)
    (h : ofVS R tag (fun (l : List Bytes) j => (p j, l ++ [j])) [] i = (.ok (rem, vs), log)) :
    ∃ hd c, FramedBy R i rem hd c ∧ hd.tag = tag ∧ Chain p c vs ∧ CallsOn p c log ∧
      log.length = vs.length + 1 := by
  have hf : NoLonger (fun (l : List Bytes) j => (p j, l ++ [j])) := by
    intro s j r v s' hh
    exact hp j r v (Prod.mk.inj hh).1
  obtain ⟨hd, c, s', n, hF, ht, hrun, hlast⟩ := (C74_of_v_ok R tag _ hf [] log i rem vs).1 h
  obtain ⟨h1, ls, h2, h3, h4⟩ := run_log hrun rfl
  obtain ⟨-, h5⟩ := Prod.mk.inj hlast
  rw [h5, List.nil_append] at h2
  subst h2
  exact ⟨hd, c, hF, ht, h1, h3, h4⟩

example := C74_calls_partial (E := BerError) .ber 16 (parseBerWithTag Tests.D0 2) [0x30, 0x06, 0x02, 0x01, 0x05, 0x02, 0x01, 0x06, 9] [9] _ _
  (fun _ _ _ h => (local_parseBerWithTag Tests.D0 2).length_le h) rfl

/-! ## Examples -/

example : ofVS .ber 16 ascending 0 [0x30, 0x03, 1, 2, 5, 0xff] = (.ok ([0xff], [1, 2, 5]), 5) := by
  decide +kernel
example : ofVS .der 16 ascending 0 [0x30, 0x03, 1, 5, 2] = (.err (.failure .berValueError), 5) := by
  decide +kernel

end
end Verif
