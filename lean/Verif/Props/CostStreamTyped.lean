import Verif.Props.CostStream
import Verif.Props.FailTyped
/-!
# A reader of a stream that calls a function for one type of BER: C145
-/
namespace Verif
open Outcome Spec

/-- A call of `ber_read_element_content_as` that asks for more octets has converted nothing. -/
theorem content_vain_octets {D : Deps} {leaf : Any → Nat} {i : Bytes} {tag : Nat} {l : Length} {k : Bool} {d : Nat} {n : Needed}
    (h : (berReadElementContentAsO D leaf i tag l k d).1 = .err (.incomplete n)) :
    (berReadElementContentAsO D leaf i tag l k d).2 ≤ i.length := by
  have go : ∀ hd : Header, ((getObjectContentO d hd i).bind fun r =>
      ((objectFromAnyO D leaf d { header := hd, data := r.2 }).mapErr .error).bind fun o =>
        Tick.free (.ok (r.1, o.content))).1 = .err (.incomplete n) →
      ((getObjectContentO d hd i).bind fun r =>
      ((objectFromAnyO D leaf d { header := hd, data := r.2 }).mapErr .error).bind fun o =>
        Tick.free (.ok (r.1, o.content))).2 ≤ i.length := by
    intro hd h
    simp only [Tick.fst_bind, Tick.fst_mapErr, Tick.fst_free] at h
    rcases bind_eq_err.1 h with h | ⟨r, hr, h⟩
    · simp only [Tick.bind, h]
      exact (octets_getObjectContent d hd i).2
    · rcases bind_eq_err.1 h with h | ⟨o, _, h⟩
      · cases hx : (objectFromAnyO D leaf d ⟨hd, r.2⟩).1 <;> simp [hx, Outcome.mapErr] at h
      · cases h
  unfold berReadElementContentAsO at h ⊢
  cases l with
  | indefinite => exact go _ h
  | definite l =>
    dsimp only at h ⊢
    split
    · simp [Tick.free]
    · rename_i h1
      rw [if_neg h1] at h
      split
      · simp [Tick.free]
      · rename_i h2
        rw [if_neg h2] at h
        exact go _ h

theorem typed_vain_octets {D : Deps} {leaf : Any → Nat} {tag : Nat} {i : Bytes} {n : Needed}
    (h : (parseBerWithTagO D leaf tag i).1 = .err (.incomplete n)) : (parseBerWithTagO D leaf tag i).2 ≤ i.length := by
  have hh := octets_headerFromBer i
  unfold parseBerWithTagO at h ⊢
  simp only [Tick.fst_bind, Tick.fst_free] at h
  rcases bind_eq_err.1 h with h | ⟨r, hr, h⟩
  · simp only [Tick.bind, h]
    exact hh.2
  · have h1 := hh.1 r hr
    dsimp only at h1
    rcases bind_eq_err.1 h with h | ⟨u, hu, h⟩
    · unfold Header.assertTag liftRes at h
      split at h <;> simp [Outcome.mapErr] at h
    · rcases bind_eq_err.1 h with h | ⟨s, _, h⟩
      · have h2 := content_vain_octets h
        simp only [Tick.bind, hr, Tick.free, hu, h]
        omega
      · cases h

/-- Work of a reader that follows the hints, if every call in vain pays one for each octet and asks for one at least. -/
theorem read_work_quadratic (q : Bytes → IRes BerError BerObject) (hpos : ∀ i n, q i = .err (.incomplete (.size n)) → 1 ≤ n)
    (p : Ticker BerObject) (hp : ∀ i, (p i).1 = q i) (hv : ∀ i n, (p i).1 = .err (.incomplete n) → (p i).2 ≤ i.length)
    (B : Nat) (hB1 : 1 ≤ B) (hB : ∀ i, (p i).2 ≤ B * i.length) (src : Bytes) (fuel : Nat) :
    (readWork p src fuel 0).1 = readStream q src fuel 0 ∧
    (∀ r m, readStream q src fuel 0 = some (r, m) → 2 * (readWork p src fuel 0).2 ≤ m * (m - 1) + 2 * (B * m)) ∧
    2 * (readWork p src fuel 0).2 ≤ src.length * (src.length - 1) + 2 * (B * src.length) := by
  have up : ∀ {a b : Nat}, a ≤ b → a * (a - 1) ≤ b * (b - 1) := fun h => Nat.mul_le_mul h (by omega)
  have step : ∀ k k' : Nat, k + 1 ≤ k' → k * (k - 1) + 2 * k ≤ k' * (k' - 1) := by
    intro k k' h
    refine Nat.le_trans ?_ (up h)
    cases k with
    | zero => simp
    | succ k =>
      simp only [Nat.add_sub_cancel]
      rw [Nat.mul_comm (k + 1 + 1)]
      have h2 := Nat.mul_add (k + 1) k 2
      show _ ≤ (k + 1) * (k + 2)
      omega
  have key : ∀ fuel k, k ≤ src.length →
      (readWork p src fuel k).1 = readStream q src fuel k ∧
      (∀ r m, readStream q src fuel k = some (r, m) → k ≤ m ∧
        2 * (readWork p src fuel k).2 + k * (k - 1) ≤ m * (m - 1) + 2 * (B * m)) ∧
      2 * (readWork p src fuel k).2 + k * (k - 1) ≤ src.length * (src.length - 1) + 2 * (B * src.length) := by
    intro fuel
    induction fuel with
    | zero =>
      intro k hk
      refine ⟨rfl, fun r m h => (nomatch h), ?_⟩
      have := up hk
      simp only [readWork]
      omega
    | succ fuel ih =>
      intro k hk
      have hlen : (src.take k).length = k := by rw [List.length_take]; omega
      have hs := hp (src.take k)
      have hb := hB (src.take k)
      rw [hlen] at hb
      have hm : B * k ≤ B * src.length := Nat.mul_le_mul_left _ hk
      have hu := up hk
      by_cases hx : ∃ n, q (src.take k) = .err (.incomplete (.size n))
      · obtain ⟨n, hx⟩ := hx
        have hn1 := hpos _ n hx
        rw [hx] at hs
        have hv := hv _ _ hs
        rw [hlen] at hv
        unfold readWork readStream
        rw [hs, hx]
        dsimp only
        by_cases hn : k + n ≤ src.length
        · rw [if_pos hn, if_pos hn]
          obtain ⟨i0, i1, i2⟩ := ih (k + n) hn
          have := step k (k + n) (by omega)
          refine ⟨i0, fun r m h => ?_, by dsimp only; omega⟩
          obtain ⟨j1, j2⟩ := i1 r m h
          exact ⟨by omega, by dsimp only; omega⟩
        · rw [if_neg hn, if_neg hn]
          refine ⟨rfl, fun r m h => (nomatch h), ?_⟩
          dsimp only
          have h2 : 2 * src.length ≤ 2 * (B * src.length) := Nat.mul_le_mul_left 2 (Nat.le_mul_of_pos_left _ (by omega))
          omega
      · have h1 : readStream q src (fuel + 1) k = some (q (src.take k), k) := by
          unfold readStream
          generalize q (src.take k) = x at hx
          cases x with
          | err e =>
            cases e with
            | incomplete m =>
              cases m with
              | size n => exact absurd ⟨n, rfl⟩ hx
              | unknown => rfl
            | _ => rfl
          | _ => rfl
        have h2 : readWork p src (fuel + 1) k = (some (q (src.take k), k), (p (src.take k)).2) := by
          unfold readWork
          rw [hs]
          generalize q (src.take k) = x at hx
          cases x with
          | err e =>
            cases e with
            | incomplete m =>
              cases m with
              | size n => exact absurd ⟨n, rfl⟩ hx
              | unknown => rfl
            | _ => rfl
          | _ => rfl
        rw [h1, h2]
        refine ⟨rfl, fun r m h => ?_, by dsimp only; omega⟩
        cases h
        exact ⟨Nat.le_refl _, by dsimp only; omega⟩
  obtain ⟨k0, k1, k2⟩ := key fuel 0 (Nat.zero_le _)
  exact ⟨k0, fun r m h => by simpa using (k1 r m h).2, by simpa using k2⟩

/-- C145 for the functions for one type of BER, i.e. `parse_ber_with_tag`. -/
theorem C145_ber_typed (D : Deps) (leaf : Any → Nat) (K : Nat) (hl : ∀ a, leaf a ≤ K * (a.data.length + 2))
    (tag : Nat) (src : Bytes) (fuel : Nat) :
    (readWork (parseBerWithTagO D leaf tag) src fuel 0).1 = readStream (parseBerWithTag D tag) src fuel 0 ∧
    (∀ r m, readStream (parseBerWithTag D tag) src fuel 0 = some (r, m) →
      2 * (readWork (parseBerWithTagO D leaf tag) src fuel 0).2 ≤ m * (m - 1) + 2 * ((K + 51) * m)) ∧
    2 * (readWork (parseBerWithTagO D leaf tag) src fuel 0).2 ≤
      src.length * (src.length - 1) + 2 * ((K + 51) * src.length) := by
  refine read_work_quadratic _ (fun i n h => ?_) _ (fun i => (C143_same_results D leaf 0 tag i).2.1)
    (fun i n h => typed_vain_octets h) (K + 51) (by omega) (fun i => C143_parse_ber_with_tag D leaf K hl tag i) src fuel
  cases (C86_ber_incomplete_iff D tag i n).1 h with
  | header _ _ h => exact cut_need_pos (st := false) (n := 1) (.header _ _ _ (by simp) h)
  | definite hb c h l _ _ _ _ h => omega
  | indefinite hb rest h _ _ _ _ h => exact cut_need_pos h

set_option maxRecDepth 4000 in
example := (C145_ber_typed Tests.D0 Tests.unitLeaf 1 (fun a => by simp [Tests.unitLeaf]) 16
  [0x30, 0x80, 0x05, 0x00, 0x00, 0x00, 9] 8).2.1 _ 6 rfl

end Verif
