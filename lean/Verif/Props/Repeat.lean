import Verif.Props.Stateful
/-!
# Repetition with arbitrary closures: C132
-/
namespace Verif
open Outcome Spec

section
variable {σ E O T : Type} [ParseErr E]

namespace Spec

/-- Successive calls of `f`: the first on `i` in state `s`, each of the others on the remainder and in
the state the one before left; all succeed, with values `vs`, and answer with a remainder of another length,
shorter or longer. -/
inductive Goes (f : SFn σ Bytes E T) : σ → Bytes → List T → σ → Bytes → Prop
  | done (s : σ) (i : Bytes) : Goes f s i [] s i
  | step {s i r v s' vs s'' j} : f s i = (.ok (r, v), s') → r.length ≠ i.length →
      Goes f s' r vs s'' j → Goes f s i (v :: vs) s'' j

/-- The calls of `f` go on for ever: `g n` is the state and the input of call `n`. -/
def Forever (f : SFn σ Bytes E T) (s : σ) (i : Bytes) : Prop :=
  ∃ g : Nat → σ × Bytes, g 0 = (s, i) ∧ ∀ n, ∃ v,
    f (g n).1 (g n).2 = (.ok ((g (n + 1)).2, v), (g (n + 1)).1) ∧ (g (n + 1)).2.length ≠ (g n).2.length

/-- The repetition ends after the values `vs` with the answer `y` and the state `s''`. -/
def EndsWith (f : SFn σ Bytes E T) (s : σ) (i : Bytes) (vs : List T) (y : IRes E (List T)) (s'' : σ) : Prop :=
  ∃ s' j x, Goes f s i vs s' j ∧ f s' j = (x, s'') ∧ Stop j vs x y

end Spec

/-- `all_consuming(many0(complete(cut(f))))`, /repo/src/ber/multi.rs:75, 298; /repo/src/der/multi.rs:76, 299,
stopped (with the answer `diverge`) before call number `fuel`, counted from zero. -/
def repeatAt (fuel : Nat) (f : SFn σ Bytes E T) : SFn σ Bytes E (List T) :=
  allConsumingS (many0S (completeS (cutS f)) fuel)

/-! ## Lemmas -/

theorem repeatAt_step {f : SFn σ Bytes E T} {s s' : σ} {i r : Bytes} {v : T} {fuel : Nat}
    (h : f s i = (.ok (r, v), s')) (hr : r.length ≠ i.length) :
    many0S (completeS (cutS f)) (fuel + 1) s i =
      ((many0S (completeS (cutS f)) fuel s' r).1 >>? fun u => .ok (u.1, v :: u.2),
        (many0S (completeS (cutS f)) fuel s' r).2) := by
  simp [many0S, completeS, cutS, h, hr]

/-- The answer of the loop itself, before `all_consuming`. -/
inductive Halt (j : Bytes) (vs : List T) : IRes E T → IRes E (List T) → Prop
  | incomplete (n) : Halt j vs (.err (.incomplete n)) (.ok (j, vs))
  | error (e) : Halt j vs (.err (.error e)) (.err (.failure e))
  | failure (e) : Halt j vs (.err (.failure e)) (.err (.failure e))
  | noProgress (r v) : r.length = j.length →
      Halt j vs (.ok (r, v)) (.err (.error (ParseErr.ofKind j .many0)))
  | panic : Halt j vs .panic .panic
  | diverge : Halt j vs .diverge .diverge

theorem goes_many0S {f : SFn σ Bytes E T} {s s' s'' : σ} {i j : Bytes} {vs : List T} {x : IRes E T}
    {y : IRes E (List T)} (hg : Goes f s i vs s' j) (hx : f s' j = (x, s'')) (hy : Halt j vs x y) :
    ∀ fuel, vs.length < fuel → many0S (completeS (cutS f)) fuel s i = (y, s'') := by
  have key : ∀ {s i vs s'}, Goes f s i vs s' j → f s' j = (x, s'') → ∀ ws y, Halt j (ws ++ vs) x y →
      ∃ y', Halt j vs x y' ∧ y = (y' >>? fun u => .ok (u.1, ws ++ u.2)) := by
    intro s i vs s' _ _ ws y hy
    cases hy with
    | incomplete n => exact ⟨_, .incomplete n, rfl⟩
    | error e => exact ⟨_, .error e, rfl⟩
    | failure e => exact ⟨_, .failure e, rfl⟩
    | noProgress r v h => exact ⟨_, .noProgress r v h, rfl⟩
    | panic => exact ⟨_, .panic, rfl⟩
    | diverge => exact ⟨_, .diverge, rfl⟩
  induction hg generalizing y with
  | done s i =>
    intro fuel hf
    obtain ⟨fuel, rfl⟩ : ∃ k, fuel = k + 1 := ⟨fuel - 1, by simp at hf; omega⟩
    cases hy with
    | noProgress r v h => simp [many0S, completeS, cutS, hx, h]
    | incomplete n => simp [many0S, completeS, cutS, hx]
    | error e => simp [many0S, completeS, cutS, hx]
    | failure e => simp [many0S, completeS, cutS, hx]
    | panic => simp [many0S, completeS, cutS, hx]
    | diverge => simp [many0S, completeS, cutS, hx]
  | @step s i r v s' vs s2 j h1 h2 h3 ih =>
    intro fuel hf
    obtain ⟨fuel, rfl⟩ : ∃ k, fuel = k + 1 := ⟨fuel - 1, by simp at hf; omega⟩
    obtain ⟨y', k1, k2⟩ := key h3 hx [v] y hy
    rw [repeatAt_step h1 h2, ih hx k1 key fuel (by simp at hf; omega), k2]
    rfl

theorem halt_of_stop {j : Bytes} {vs : List T} {x : IRes E T} {y : IRes E (List T)} (h : Stop j vs x y) :
    ∃ z, Halt j vs x z ∧ (z >>? fun r =>
      match r.1 with
      | [] => .ok r
      | _ :: _ => .err (.error (ParseErr.ofKind r.1 .eof))) = y := by
  cases h with
  | finished n hj => subst hj; exact ⟨_, .incomplete n, rfl⟩
  | truncated n hj =>
    cases j with
    | nil => exact absurd rfl hj
    | cons b j => exact ⟨_, .incomplete n, rfl⟩
  | error e => exact ⟨_, .error e, rfl⟩
  | failure e => exact ⟨_, .failure e, rfl⟩
  | noProgress r v h => exact ⟨_, .noProgress r v h, rfl⟩
  | panic => exact ⟨_, .panic, rfl⟩
  | diverge => exact ⟨_, .diverge, rfl⟩

/-- One call: it ends the repetition, or is followed by another one. -/
theorem call_cases (f : SFn σ Bytes E T) (s : σ) (i : Bytes) (vs : List T) :
    (∃ x s' y, f s i = (x, s') ∧ Stop i vs x y) ∨
    ∃ r v s', f s i = (.ok (r, v), s') ∧ r.length ≠ i.length := by
  rcases hx : f s i with ⟨x, s'⟩
  cases x with
  | err e =>
    cases e with
    | incomplete n =>
      by_cases hi : i = []
      · exact .inl ⟨_, _, _, rfl, .finished n hi⟩
      · exact .inl ⟨_, _, _, rfl, .truncated n hi⟩
    | error e => exact .inl ⟨_, _, _, rfl, .error e⟩
    | failure e => exact .inl ⟨_, _, _, rfl, .failure e⟩
  | panic => exact .inl ⟨_, _, _, rfl, .panic⟩
  | diverge => exact .inl ⟨_, _, _, rfl, .diverge⟩
  | ok r =>
    obtain ⟨r, v⟩ := r
    by_cases hr : r.length = i.length
    · exact .inl ⟨_, _, _, rfl, .noProgress r v hr⟩
    · exact .inr ⟨r, v, s', rfl, hr⟩

theorem stop_same {j : Bytes} {vs : List T} {r : Bytes} {v : T} {y : IRes E (List T)}
    (h : Stop j vs (.ok (r, v)) y) : r.length = j.length := by
  cases h; assumption

omit [ParseErr E] in
theorem forever_next {f : SFn σ Bytes E T} {s s' : σ} {i r : Bytes} {v : T} (h : Forever f s i)
    (h1 : f s i = (.ok (r, v), s')) : r.length ≠ i.length ∧ Forever f s' r := by
  obtain ⟨g, h0, hg⟩ := h
  obtain ⟨w, k1, k2⟩ := hg 0
  rw [h0] at k1 k2
  simp only [Nat.zero_add] at k1 k2
  rw [h1] at k1
  simp only [Prod.mk.injEq, ok.injEq] at k1
  obtain ⟨⟨rfl, -⟩, rfl⟩ := k1
  exact ⟨k2, fun n => g (n + 1), rfl, fun n => hg (n + 1)⟩

/-! ## C132 -/

/-- C132: whatever the closure answers, the repetition either ends or goes on for ever. -/
theorem C132_alternative (f : SFn σ Bytes E T) (s : σ) (i : Bytes) :
    (∃ vs y s'', EndsWith f s i vs y s'') ∨ Forever f s i := by
  refine Classical.byContradiction fun hN => ?_
  have hN1 : ¬ ∃ vs y s'', EndsWith f s i vs y s'' := fun h => hN (.inl h)
  have step : ∀ p : { p : σ × Bytes // ¬ ∃ vs y s'', EndsWith f p.1 p.2 vs y s'' },
      ∃ q : { p : σ × Bytes // ¬ ∃ vs y s'', EndsWith f p.1 p.2 vs y s'' }, ∃ v,
        f p.1.1 p.1.2 = (.ok (q.1.2, v), q.1.1) ∧ q.1.2.length ≠ p.1.2.length := by
    intro ⟨p, hp⟩
    rcases call_cases f p.1 p.2 [] with ⟨x, s', y, h1, h2⟩ | ⟨r, v, s', h1, h2⟩
    · exact absurd ⟨[], y, s', p.1, p.2, x, .done _ _, h1, h2⟩ hp
    · refine ⟨⟨(s', r), fun ⟨vs, y, s2, s3, j, x, k1, k2, k3⟩ => hp ?_⟩, v, h1, h2⟩
      have lift : ∃ y', Stop j (v :: vs) x y' := by
        cases k3 with
        | finished n hj => exact ⟨_, .finished n hj⟩
        | truncated n hj => exact ⟨_, .truncated n hj⟩
        | error e => exact ⟨_, .error e⟩
        | failure e => exact ⟨_, .failure e⟩
        | noProgress r v h => exact ⟨_, .noProgress r v h⟩
        | panic => exact ⟨_, .panic⟩
        | diverge => exact ⟨_, .diverge⟩
      obtain ⟨y', hy'⟩ := lift
      exact ⟨v :: vs, y', s2, s3, j, x, .step h1 h2 k1, k2, hy'⟩
  let next := fun p => Classical.choose (step p)
  let g : Nat → { p : σ × Bytes // ¬ ∃ vs y s'', EndsWith f p.1 p.2 vs y s'' } :=
    fun n => Nat.rec ⟨(s, i), hN1⟩ (fun _ p => next p) n
  exact hN (.inr ⟨fun n => (g n).1, rfl, fun n => Classical.choose_spec (step (g n))⟩)

namespace Tests
/-- A closure that answers the first call with a remainder of two octets, whatever its input, and then takes one octet
at a time; the state is the number of calls. -/
def restart : SFn Nat Bytes BerError UInt8 := fun n i =>
  if n = 0 then (.ok ([1, 2], 0), 1)
  else
    match i with
    | [] => (.err (.incomplete (.size 1)), n + 1)
    | b :: r => (.ok (r, b), n + 1)
end Tests

/-- A remainder longer than the input, and still an end, after three values and four calls. -/
theorem restart_ends : EndsWith Tests.restart 0 [9] [0, 1, 2] (.ok ([], [0, 1, 2])) 4 :=
  ⟨3, [], .err (.incomplete (.size 1)), .step rfl (by decide) (.step rfl (by decide) (.step rfl (by decide) (.done _ _))),
    rfl, .finished _ rfl⟩

/-- C132: and not both; the values, the answer and the state of a repetition that ends are determined. -/
theorem C132_determined (f : SFn σ Bytes E T) (s s'' : σ) (i : Bytes) (vs : List T) (y : IRes E (List T))
    (h : EndsWith f s i vs y s'') :
    ¬ Forever f s i ∧ ∀ vs' y' t, EndsWith f s i vs' y' t → vs' = vs ∧ y' = y ∧ t = s'' := by
  obtain ⟨s', j, x, h1, h2, h3⟩ := h
  constructor
  · intro hF
    have go : ∀ {s i vs s' j}, Goes f s i vs s' j → Forever f s i → Forever f s' j := by
      intro s i vs s' j hg
      induction hg with
      | done => exact id
      | step k1 k2 k3 ih => exact fun hF => ih (forever_next hF k1).2
    obtain ⟨g, h0, hg⟩ := go h1 hF
    obtain ⟨v, k1, k2⟩ := hg 0
    rw [h0] at k1 k2
    rw [h2] at k1
    obtain ⟨rfl, -⟩ := Prod.mk.inj k1
    exact k2 (stop_same h3)
  · rintro vs' y' t ⟨s2, j2, x2, g1, g2, g3⟩
    have uni : ∀ {s i vs s1 j}, Goes f s i vs s1 j → ∀ {vs' s1' j'}, Goes f s i vs' s1' j' →
        (∀ r v s2, f s1 j = (.ok (r, v), s2) → r.length = j.length) →
        (∀ r v s2, f s1' j' = (.ok (r, v), s2) → r.length = j'.length) → vs = vs' ∧ s1 = s1' ∧ j = j' := by
      intro s i vs s1 j h
      induction h with
      | done s i =>
        intro vs' s1' j' h' hx hx'
        cases h' with
        | done => exact ⟨rfl, rfl, rfl⟩
        | step h1 h2 _ => exact absurd (hx _ _ _ h1) h2
      | step h1 h2 h3 ih =>
        intro vs' s1' j' h' hx hx'
        cases h' with
        | done => exact absurd (hx' _ _ _ h1) h2
        | step k1 k2 k3 =>
          rw [h1] at k1
          simp only [Prod.mk.injEq, ok.injEq] at k1
          obtain ⟨⟨rfl, rfl⟩, rfl⟩ := k1
          obtain ⟨rfl, rfl, rfl⟩ := ih k3 hx hx'
          exact ⟨rfl, rfl, rfl⟩
    obtain ⟨rfl, rfl, rfl⟩ := uni h1 g1
      (fun r v s3 h => by rw [h2] at h; obtain ⟨rfl, -⟩ := Prod.mk.inj h; exact stop_same h3)
      (fun r v s3 h => by rw [g2] at h; obtain ⟨rfl, -⟩ := Prod.mk.inj h; exact stop_same g3)
    rw [h2] at g2
    obtain ⟨rfl, rfl⟩ := Prod.mk.inj g2
    exact ⟨rfl, stop_unique g3 h3, rfl⟩

example := C132_determined _ _ _ _ _ _ restart_ends

/-- C132: a repetition that ends does so after one call for each value and one more, and this is what the loop
of the model answers from then on. -/
theorem C132_ends (f : SFn σ Bytes E T) (s s'' : σ) (i : Bytes) (vs : List T) (y : IRes E (List T))
    (h : EndsWith f s i vs y s'') (fuel : Nat) (hf : vs.length < fuel) : repeatAt fuel f s i = (y, s'') := by
  obtain ⟨s', j, x, h1, h2, h3⟩ := h
  obtain ⟨z, k1, k2⟩ := halt_of_stop h3
  unfold repeatAt allConsumingS
  rw [goes_many0S h1 h2 k1 fuel hf]
  exact Prod.ext k2 rfl

example := C132_ends _ _ _ _ _ _ restart_ends 4 (by decide)

/-- C132: a repetition that goes on for ever never answers. -/
theorem C132_forever (f : SFn σ Bytes E T) (s : σ) (i : Bytes) (h : Forever f s i) (fuel : Nat) :
    (repeatAt fuel f s i).1 = .diverge := by
  have key : ∀ fuel s i, Forever f s i → (many0S (completeS (cutS f)) fuel s i).1 = .diverge := by
    intro fuel
    induction fuel with
    | zero => intro s i _; rfl
    | succ fuel ih =>
      intro s i h
      obtain ⟨g, h0, hg⟩ := id h
      obtain ⟨v, k1, k2⟩ := hg 0
      rw [h0] at k1 k2
      rw [repeatAt_step k1 k2]
      simp only [ih _ _ (forever_next h k1).2, diverge_bind]
  unfold repeatAt allConsumingS
  simp only [key fuel s i h, diverge_bind]

/-- C132: with a closure that itself always comes back, the repetition ends unless it goes on for ever. -/
theorem C132_returns (f : SFn σ Bytes E T) (hf : ∀ s j, (f s j).1.Returns) (s : σ) (i : Bytes) :
    (∃ fuel, (repeatAt fuel f s i).1.Returns) ↔ ¬ Forever f s i := by
  constructor
  · rintro ⟨fuel, h⟩ hF
    rw [C132_forever f s i hF fuel] at h
    exact h
  · intro hN
    rcases C132_alternative f s i with ⟨vs, y, s'', h⟩ | h
    · refine ⟨vs.length + 1, ?_⟩
      rw [C132_ends f s s'' i vs y h _ (by omega)]
      obtain ⟨s', j, x, h1, h2, h3⟩ := h
      have := hf s' j
      rw [h2] at this
      cases h3 <;> first | trivial | exact this
    · exact absurd h hN

example := (C132_returns Tests.restart (fun n j => by
  unfold Tests.restart
  split
  · trivial
  · split <;> trivial) 0 [9]).1
  ⟨4, trivial⟩

/-- C132: the repetition of the model (C74) makes as many calls as there are contents octets, and one more; that
is enough, and the answer the right one, whenever the closure is called no more often. -/
theorem C132_model (f : SFn σ Bytes E T) (s s'' : σ) (i : Bytes) (vs : List T) (y : IRes E (List T))
    (h : EndsWith f s i vs y s'') (hv : vs.length ≤ i.length) : ofSubparserS f s i = (y, s'') :=
  C132_ends f s s'' i vs y h (i.length + 1) (by omega)

/-- Two octets, one after the other. -/
example := C132_model Tests.restart 1 4 [5, 6] [5, 6] (.ok ([], [5, 6]))
  ⟨3, [], .err (.incomplete (.size 1)), .step rfl (by decide) (.step rfl (by decide) (.done _ _)), rfl, .finished _ rfl⟩ (by decide)

/-- C132: in particular if no remainder is longer than the input; then the repetition always ends. -/
theorem C132_no_longer (f : SFn σ Bytes E T) (hf : NoLonger f) (s : σ) (i : Bytes) :
    ¬ Forever f s i ∧ ∃ vs y s'', EndsWith f s i vs y s'' ∧ vs.length ≤ i.length := by
  obtain ⟨vs, s', j, x, h1, h2, h3⟩ := (C74_repetition f hf s _ i _).1 (rfl : ofSubparserS f s i = (_, _))
  have key : ∀ {s i vs s' j}, Run f s i vs s' j → Goes f s i vs s' j ∧ vs.length + j.length ≤ i.length := by
    intro s i vs s' j h
    induction h with
    | done => exact ⟨.done _ _, by simp⟩
    | step k1 k2 _ ih => exact ⟨.step k1 (by omega) ih.1, by simp only [List.length_cons]; omega⟩
  have hE : EndsWith f s i vs _ _ := ⟨s', j, x, (key h1).1, h2, h3⟩
  exact ⟨(C132_determined f s _ i vs _ hE).1, vs, _, _, hE, by have := (key h1).2; omega⟩

example := C132_no_longer ascending ascending_noLonger 0 [1, 2, 5]

/-- C132: `parse_*_sequence_of_v` and `parse_*_set_of_v` for any closure, on an element with the right tag number: the
answer is the one of the repetition on the contents. -/
theorem C132_of_v (R : Rules) (tag : Nat) (f : SFn σ Bytes E T) (s s'' : σ) (i rem c : Bytes) (h : Header)
    (hF : FramedBy R i rem h c) (ht : h.tag = tag) (vs : List T) (y : IRes E (List T))
    (hE : EndsWith f s c vs y s'') (fuel : Nat) (hf : vs.length < fuel) :
    definedGS R tag (fun s x => repeatAt fuel f s x.1) s i = (y >>? fun r => .ok (rem, r.2), s'') := by
  rw [C74_defined R tag _ s i rem c h hF, if_pos ht]
  simp only [C132_ends f s s'' c vs y hE fuel hf]

example := C132_of_v .ber 16 Tests.restart 0 4 [0x30, 0x01, 9, 0xff] [0xff] [9] _ ((frame_iff (E := BerError)).1 rfl) rfl _ _
  restart_ends 4 (by decide)

end

/-- C132: where the fuel of `ofSubparserS` is not enough, the model answers `diverge` though the loop ends: the hypothesis
of `C132_model` (met by all closures with `NoLonger`) is needed. -/
theorem C132_fuel_counterexample : (ofSubparserS Tests.restart 0 [9]).1 = .diverge ∧
    repeatAt 4 Tests.restart 0 [9] = (.ok ([], [0, 1, 2]), 4) := ⟨rfl, rfl⟩

/-- Non-trivial case of `C132_forever`: a closure that puts an octet in front of its input. -/
example : Forever (fun (_ : Unit) (i : Bytes) => ((.ok (0 :: i, ()) : IRes BerError Unit), ())) () [] :=
  ⟨fun n => ((), List.replicate n 0), rfl, fun n => ⟨(), by simp [List.replicate_succ], by simp⟩⟩

end Verif
