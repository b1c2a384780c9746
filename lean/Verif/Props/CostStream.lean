import Verif.Props.CostSchemaOctets
import Verif.Props.Cuts
/-!
# Work of a reader that follows the hints: C145

`readStream` of `Verif/Props/Cuts.lean` calls the parser again on all it has read, each time it is told to read more.
-/
namespace Verif
open Outcome Spec

/-- The reader `readStream`, with the octets looked at in all its calls of `parse_ber_recursive`, where `k` octets have
been read from the stream. -/
def readWork {α : Type} (p : Ticker α) (src : Bytes) : Nat → Nat → Option (IRes BerError α × Nat) × Nat
  | 0, _ => (none, 0)
  | fuel + 1, k =>
    match (p (src.take k)).1 with
    | .err (.incomplete (.size n)) =>
      if k + n ≤ src.length then
        ((readWork p src fuel (k + n)).1, (p (src.take k)).2 + (readWork p src fuel (k + n)).2)
      else (none, (p (src.take k)).2)
    | r => (some (r, k), (p (src.take k)).2)

/-- C145: counting does not change the results. -/
theorem C145_same_results (D : Deps) (leaf : Any → Nat) (d : Nat) (src : Bytes) (fuel k : Nat) :
    (readWork (parseBerRecursiveO D leaf d) src fuel k).1 = readStream (parseBerRecursive D d) src fuel k := by
  induction fuel generalizing k with
  | zero => rfl
  | succ fuel ih =>
    have h := (C143_same_results D leaf d 0 (src.take k)).1
    unfold readWork readStream
    rw [h]
    generalize parseBerRecursive D d (src.take k) = x
    cases x with
    | err e =>
      cases e with
      | incomplete m =>
        cases m with
        | size n => by_cases hn : k + n ≤ src.length <;> simp [hn, ih]
        | unknown => rfl
      | error e => rfl
      | failure e => rfl
    | _ => rfl

/-- A call that asks for more octets has looked at each of the octets it was given at most once, and has converted
nothing. -/
theorem vain_octets {D : Deps} {leaf : Any → Nat} {d : Nat} {i : Bytes} {n : Needed}
    (h : (parseBerRecursiveO D leaf d i).1 = .err (.incomplete n)) : (parseBerRecursiveO D leaf d i).2 ≤ i.length := by
  unfold parseBerRecursiveO at h ⊢
  split at h
  · cases h
  · rename_i hd
    rw [if_neg hd]
    simp only [Tick.fst_bind, Tick.fst_mapErr, Tick.fst_free] at h
    rcases bind_eq_err.1 h with h | ⟨r, hr, h⟩
    · simp only [Tick.bind, h]
      exact (octets_anyFromBer i).2
    · rcases bind_eq_err.1 h with h | ⟨o, _, h⟩
      · cases hx : (objectFromAnyO D leaf d r.2).1 <;> simp [hx, Outcome.mapErr] at h
      · cases h

/-- C145: a reader that follows the hints and has read `m` octets when it gets an answer (or `m` octets when the stream
ends) has looked at no more than `m * (m - 1) / 2` octets in vain, and at `d + K + 1` for each octet in its last call. -/
theorem C145_quadratic (D : Deps) (leaf : Any → Nat) (K : Nat) (hl : ∀ a, leaf a ≤ K * (a.data.length + 2))
    (d : Nat) (src : Bytes) (fuel : Nat) :
    (∀ r m, readStream (parseBerRecursive D (d + 1)) src fuel 0 = some (r, m) →
      2 * (readWork (parseBerRecursiveO D leaf (d + 1)) src fuel 0).2 ≤ m * (m - 1) + 2 * ((d + K + 2) * m)) ∧
    2 * (readWork (parseBerRecursiveO D leaf (d + 1)) src fuel 0).2 ≤
      src.length * (src.length - 1) + 2 * ((d + K + 2) * src.length) := by
  have up : ∀ {a b : Nat}, a ≤ b → a * (a - 1) ≤ b * (b - 1) := fun h => Nat.mul_le_mul h (by omega)
  have step : ∀ k k' : Nat, k + 1 ≤ k' → k * (k - 1) + 2 * k ≤ k' * (k' - 1) := by
    intro k k' h
    refine Nat.le_trans ?_ (up h)
    cases k with
    | zero => simp
    | succ k =>
      simp only [Nat.add_sub_cancel]
      rw [Nat.mul_comm (k + 1 + 1)]
      have h2 := Nat.mul_add (k + 1) k 2
      show _ ≤ (k + 1) * (k + 2)
      omega
  have key : ∀ fuel k, k ≤ src.length →
      (∀ r m, readStream (parseBerRecursive D (d + 1)) src fuel k = some (r, m) → k ≤ m ∧
        2 * (readWork (parseBerRecursiveO D leaf (d + 1)) src fuel k).2 + k * (k - 1) ≤
          m * (m - 1) + 2 * ((d + K + 2) * m)) ∧
      2 * (readWork (parseBerRecursiveO D leaf (d + 1)) src fuel k).2 + k * (k - 1) ≤
        src.length * (src.length - 1) + 2 * ((d + K + 2) * src.length) := by
    intro fuel
    induction fuel with
    | zero =>
      intro k hk
      refine ⟨fun r m h => by simp [readStream] at h, ?_⟩
      have := up hk
      simp only [readWork]
      omega
    | succ fuel ih =>
      intro k hk
      have hlen : (src.take k).length = k := by rw [List.length_take]; omega
      have hs := (C143_same_results D leaf (d + 1) 0 (src.take k)).1
      have hb := (C143_parse_ber D leaf K hl (d + 1) (src.take k)).1
      rw [hlen] at hb
      have e : d + 1 + K + 1 = d + K + 2 := by omega
      rw [e] at hb
      have hm : (d + K + 2) * k ≤ (d + K + 2) * src.length := Nat.mul_le_mul_left _ hk
      have hu := up hk
      by_cases hx : ∃ n, parseBerRecursive D (d + 1) (src.take k) = .err (.incomplete (.size n))
      · obtain ⟨n, hx⟩ := hx
        have hpos : 1 ≤ n := cut_need_pos ((C81_incomplete_iff D d _ n).1 hx)
        rw [hx] at hs
        have hv := vain_octets hs
        rw [hlen] at hv
        unfold readWork readStream
        rw [hs, hx]
        dsimp only
        by_cases hn : k + n ≤ src.length
        · rw [if_pos hn, if_pos hn]
          obtain ⟨i1, i2⟩ := ih (k + n) hn
          have := step k (k + n) (by omega)
          refine ⟨fun r m h => ?_, by omega⟩
          obtain ⟨j1, j2⟩ := i1 r m h
          exact ⟨by omega, by omega⟩
        · rw [if_neg hn, if_neg hn]
          refine ⟨fun r m h => (nomatch h), ?_⟩
          dsimp only
          have h2 : 2 * src.length ≤ 2 * ((d + K + 2) * src.length) :=
            Nat.mul_le_mul_left 2 (Nat.le_mul_of_pos_left _ (by omega))
          omega
      · have h1 : readStream (parseBerRecursive D (d + 1)) src (fuel + 1) k =
            some (parseBerRecursive D (d + 1) (src.take k), k) := by
          unfold readStream
          generalize parseBerRecursive D (d + 1) (src.take k) = x at hx
          cases x with
          | err e =>
            cases e with
            | incomplete m =>
              cases m with
              | size n => exact absurd ⟨n, rfl⟩ hx
              | unknown => rfl
            | _ => rfl
          | _ => rfl
        have h2 : (readWork (parseBerRecursiveO D leaf (d + 1)) src (fuel + 1) k).2 =
            (parseBerRecursiveO D leaf (d + 1) (src.take k)).2 := by
          unfold readWork
          rw [hs]
          generalize parseBerRecursive D (d + 1) (src.take k) = x at hx
          cases x with
          | err e =>
            cases e with
            | incomplete m =>
              cases m with
              | size n => exact absurd ⟨n, rfl⟩ hx
              | unknown => rfl
            | _ => rfl
          | _ => rfl
        rw [h1, h2]
        refine ⟨fun r m h => ?_, by omega⟩
        cases h
        exact ⟨Nat.le_refl _, by omega⟩
  obtain ⟨k1, k2⟩ := key fuel 0 (Nat.zero_le _)
  exact ⟨fun r m h => by simpa using (k1 r m h).2, by simpa using k2⟩

example := (C145_quadratic Tests.D0 Tests.unitLeaf 1 (fun a => by simp [Tests.unitLeaf]) 49
  [0x30, 0x80, 0x05, 0x00, 0x00, 0x00, 9] 8).1 _ 6 rfl

/-- One call of the reader that is not asked for more. -/
theorem readWork_last {D : Deps} {leaf : Any → Nat} {d fuel k : Nat} {src : Bytes}
    (hx : ∀ n, parseBerRecursive D d (src.take k) ≠ .err (.incomplete (.size n))) :
    readWork (parseBerRecursiveO D leaf d) src (fuel + 1) k =
      (some (parseBerRecursive D d (src.take k), k), (parseBerRecursiveO D leaf d (src.take k)).2) := by
  have hs := (C143_same_results D leaf d 0 (src.take k)).1
  unfold readWork
  rw [hs]
  generalize parseBerRecursive D d (src.take k) = x at hx
  cases x with
  | err e =>
    cases e with
    | incomplete m =>
      cases m with
      | size n => exact absurd rfl (hx n)
      | unknown => rfl
    | _ => rfl
  | _ => rfl

/-- One call of the reader that is asked for more. -/
theorem readWork_more {D : Deps} {leaf : Any → Nat} {d fuel k n : Nat} {src : Bytes}
    (hx : parseBerRecursive D d (src.take k) = .err (.incomplete (.size n))) (hn : k + n ≤ src.length) :
    readWork (parseBerRecursiveO D leaf d) src (fuel + 1) k =
      ((readWork (parseBerRecursiveO D leaf d) src fuel (k + n)).1,
        (parseBerRecursiveO D leaf d (src.take k)).2 + (readWork (parseBerRecursiveO D leaf d) src fuel (k + n)).2) := by
  have hs := (C143_same_results D leaf d 0 (src.take k)).1
  rw [hx] at hs
  rw [readWork, hs]
  dsimp only
  rw [if_pos hn]

/-- C145: for an element of definite length the calls in vain cost no more than a function of the length of its
header: all the contents are asked for at once. -/
theorem C145_definite (D : Deps) (leaf : Any → Nat) (K : Nat) (hl : ∀ a, leaf a ≤ K * (a.data.length + 2))
    (d : Nat) (hb c rest : Bytes) (h : Header) (H : BerHeader hb h) (hc : h.length = .definite c.length) (fuel : Nat) :
    2 * (readWork (parseBerRecursiveO D leaf (d + 1)) (hb ++ c ++ rest) fuel 0).2 ≤
      hb.length * (hb.length + 1) + 2 * ((d + K + 2) * (hb.length + c.length)) := by
  have call : ∀ k, k ≤ hb.length + c.length →
      (parseBerRecursiveO D leaf (d + 1) ((hb ++ c ++ rest).take k)).2 ≤ (d + K + 2) * (hb.length + c.length) := by
    intro k hk
    have h1 := (C143_parse_ber D leaf K hl (d + 1) ((hb ++ c ++ rest).take k)).1
    have e : d + 1 + K + 1 = d + K + 2 := by omega
    have e2 : ((hb ++ c ++ rest).take k).length = k := by simp; omega
    rw [e, e2] at h1
    exact Nat.le_trans h1 (Nat.mul_le_mul_left _ hk)
  have last : ∀ fuel, (readWork (parseBerRecursiveO D leaf (d + 1)) (hb ++ c ++ rest) fuel (hb.length + c.length)).2 ≤
      (d + K + 2) * (hb.length + c.length) := by
    intro fuel
    cases fuel with
    | zero => simp [readWork]
    | succ fuel =>
      rw [readWork_last]
      · exact call _ (Nat.le_refl _)
      · intro n hn
        have e : (hb ++ c ++ rest).take (hb.length + c.length) = hb ++ c := by
          rw [List.take_append_of_le_length (by simp), ← List.length_append, List.take_length]
        rw [e] at hn
        have h1 := anyFromBer_incomplete.2 ((C81_incomplete_iff D d _ n).1 hn)
        have h2 := (anyFromBer_framed (i := hb ++ c) (rem := []) (a := ⟨h, c⟩)).2
          ⟨hb ++ c, by simp, .definite hb c h H hc⟩
        rw [h2] at h1
        cases h1
  have key : ∀ fuel k, k ≤ hb.length →
      2 * (readWork (parseBerRecursiveO D leaf (d + 1)) (hb ++ c ++ rest) fuel k).2 + k * (k - 1) ≤
        hb.length * (hb.length + 1) + 2 * ((d + K + 2) * (hb.length + c.length)) := by
    have up : ∀ {a b : Nat}, a ≤ b → a * (a - 1) ≤ b * (b + 1) := fun h => Nat.mul_le_mul h (by omega)
    intro fuel
    induction fuel with
    | zero =>
      intro k hk
      have := up hk
      simp only [readWork]
      omega
    | succ fuel ih =>
      intro k hk
      by_cases hx : ∃ n, parseBerRecursive D (d + 1) ((hb ++ c ++ rest).take k) = .err (.incomplete (.size n))
      · obtain ⟨n, hx⟩ := hx
        have hcut := (C81_incomplete_iff D d _ n).1 hx
        have hpos : 1 ≤ n := cut_need_pos hcut
        have hany := anyFromBer_incomplete.2 hcut
        have e : (hb ++ c ++ rest).take k = hb.take k := by
          rw [List.append_assoc, List.take_append_of_le_length hk]
        have hv := vain_octets ((C143_same_results D leaf (d + 1) 0 _).1.trans hx)
        have hlen : ((hb ++ c ++ rest).take k).length = k := by rw [e, List.length_take]; omega
        rw [hlen] at hv
        have whole : headerFromBer hb = .ok ([], h) := headerFromBer_iff.2 ⟨hb, by simp, H⟩
        rw [e] at hany
        by_cases hke : k = hb.length
        · subst hke
          rw [List.take_length] at hany
          have hneed : n = c.length := by
            unfold anyFromBer at hany
            rw [whole] at hany
            have hs : skipContent maxRecursion h [] =
                if c.length = 0 ∧ h.tag = Tag.endOfContent then .ok ([], true)
                else takeStreaming c.length [] >>? fun r => .ok (r.1, false) := by
              rw [show maxRecursion = 49 + 1 from rfl, skipContent, hc]
            simp only [ok_bind, getObjectContent, hs] at hany
            split at hany
            · simp [hc] at hany
            · simp only [takeStreaming] at hany
              split at hany
              · simp only [List.length_nil, Nat.sub_zero] at hany
                simp only [err_bind, Outcome.err.injEq, NomErr.incomplete.injEq, Needed.new] at hany
                split at hany
                · cases hany
                · injection hany with hany; exact hany.symm
              · simp [hc] at hany
          subst hneed
          rw [readWork_more hx (by simp)]
          have := last fuel
          have e3 : hb.length * (hb.length + 1) = hb.length * (hb.length - 1) + 2 * hb.length := by
            cases hb.length with
            | zero => rfl
            | succ m =>
              simp only [Nat.add_sub_cancel]
              have := Nat.mul_add (m + 1) m 2
              show (m + 1) * (m + 2) = _
              omega
          dsimp only
          omega
        · have hlt : k < hb.length := by omega
          have hhdr : headerFromBer (hb.take k) = .err (.incomplete (.size n)) := by
            unfold anyFromBer at hany
            rcases bind_eq_err.1 hany with h1 | ⟨r, h1, -⟩
            · exact h1
            · obtain ⟨pre, hp⟩ := (headerFromBer_iff (h := r.2) (rem := r.1)).1 h1
              have := (headerFromBer_iff (i := hb) (rem := r.1 ++ hb.drop k) (h := r.2)).2
                ⟨pre, by rw [← List.append_assoc, ← hp.1, List.take_append_drop], hp.2⟩
              rw [whole] at this
              simp only [Outcome.ok.injEq, Prod.mk.injEq] at this
              have h3 := congrArg List.length this.1
              simp at h3
              omega
          have hle := incomplete_lower_bound local_headerFromBer truncOk_headerFromBer (t := hb.drop k) hhdr
            (by rw [List.take_append_drop]; exact whole)
          rw [List.length_drop] at hle
          rw [readWork_more hx (by simp; omega)]
          have := ih (k + n) (by omega)
          have h4 : k * (k - 1) + 2 * k ≤ (k + n) * (k + n - 1) := by
            refine Nat.le_trans ?_ (Nat.mul_le_mul (show k + 1 ≤ k + n by omega) (show k ≤ k + n - 1 by omega))
            cases k with
            | zero => simp
            | succ k =>
              simp only [Nat.add_sub_cancel]
              rw [Nat.mul_comm (k + 1 + 1)]
              have h2 := Nat.mul_add (k + 1) k 2
              show _ ≤ (k + 1) * (k + 2)
              omega
          dsimp only
          omega
      · rw [readWork_last fun n hn => hx ⟨n, hn⟩]
        have := call k (by omega)
        have := up hk
        dsimp only
        omega
  simpa using key fuel 0 (Nat.zero_le _)

example := C145_definite Tests.D0 Tests.unitLeaf 1 (fun a => by simp [Tests.unitLeaf]) 49 [0x02, 0x01] [5] [9] _
  (berHeader_read rfl) rfl 10

/-! ## The bound is reached -/

open Tests

private theorem nulls_length (k : Nat) : (nulls k).length = 2 * k := by
  have := nestedIndef_length k 0
  rw [nestedIndef] at this
  omega

private theorem nulls_take (t : Bytes) : ∀ {m k : Nat}, m ≤ k → (nulls k ++ t).take (2 * m) = nulls m
  | 0, k, _ => by simp [nulls]
  | m + 1, 0, h => by omega
  | m + 1, k + 1, h => by
    have := nulls_take t (m := m) (k := k) (by omega)
    rw [show 2 * (m + 1) = 2 * m + 2 by omega]
    simp only [nulls, List.cons_append, List.take_succ_cons, this]

private theorem nulls_take_odd : ∀ {m k : Nat}, m ≤ k →
    ∃ b : UInt8, (b = 0x05 ∨ b = 0x00) ∧ (nulls k ++ [0x00, 0x00]).take (2 * m + 1) = nulls m ++ [b]
  | 0, 0, _ => ⟨0x00, .inr rfl, rfl⟩
  | 0, k + 1, _ => ⟨0x05, .inl rfl, rfl⟩
  | m + 1, 0, h => by omega
  | m + 1, k + 1, h => by
    obtain ⟨b, hb, e⟩ := nulls_take_odd (m := m) (k := k) (by omega)
    refine ⟨b, hb, ?_⟩
    rw [show 2 * (m + 1) + 1 = (2 * m + 1) + 2 by omega]
    simp only [nulls, List.cons_append, List.take_succ_cons, e]

private theorem skipLoopO_cut (d : Nat) (x : Bytes) (hx : x.length ≤ 1)
    (h : headerFromBer x = .err (.incomplete (.size 1))) : ∀ m fuel, m < fuel →
    skipLoopO (skipContentO (d + 1)) fuel (nulls m ++ x) = (.err (.incomplete (.size 1)), 2 * m + x.length) := by
  intro m
  induction m with
  | zero =>
    intro fuel hf
    obtain ⟨fuel, rfl⟩ : ∃ f, fuel = f + 1 := ⟨fuel - 1, by omega⟩
    simp only [skipLoopO, nulls, List.nil_append, lookHeader, headerOctets, h, Tick.bind]
    congr 1
    omega
  | succ m ih =>
    intro fuel hf
    obtain ⟨fuel, rfl⟩ : ∃ f, fuel = f + 1 := ⟨fuel - 1, by omega⟩
    have h2 : lookHeader headerFromBer (0x05 :: 0x00 :: (nulls m ++ x)) = (.ok (nulls m ++ x, hdrNull), 2) := by
      simp only [lookHeader, headerOctets, header_null, List.length_cons]
      congr 1
      omega
    have h3 : skipContentO (d + 1) hdrNull (nulls m ++ x) = (.ok (nulls m ++ x, false), 0) := by
      simp [skipContentO, hdrNull, Tick.free, takeStreaming, Tag.endOfContent]
    simp only [skipLoopO, nulls, List.cons_append, h2, Tick.bind, h3, ih fuel (by omega)]
    simp
    omega

private theorem seq_cut (D : Deps) (leaf : Any → Nat) (d m : Nat) (x : Bytes) (hx : x.length ≤ 1)
    (h : headerFromBer x = .err (.incomplete (.size 1))) :
    parseBerRecursiveO D leaf (d + 1) (0x30 :: 0x80 :: (nulls m ++ x)) =
      (.err (.incomplete (.size 1)), 2 + 2 * m + x.length) := by
  have h2 : lookHeader headerFromBer (0x30 :: 0x80 :: (nulls m ++ x)) = (.ok (nulls m ++ x, hdrSeqIndef), 2) := by
    simp only [lookHeader, headerOctets, header_seq, List.length_cons]
    congr 1
    omega
  have h3 : skipContentO maxRecursion hdrSeqIndef (nulls m ++ x) =
      skipLoopO (skipContentO (48 + 1)) ((nulls m ++ x).length + 1) (nulls m ++ x) := rfl
  have h4 := skipLoopO_cut 48 x hx h m ((nulls m ++ x).length + 1)
    (by rw [List.length_append, nulls_length]; omega)
  unfold parseBerRecursiveO
  rw [if_neg (by omega)]
  simp only [anyFromBerO, h2, Tick.bind, getObjectContentO, h3, h4]
  congr 1
  omega

theorem nestedIndef_cut (D : Deps) (leaf : Any → Nat) (d k j : Nat) (hj : j < 2 * k + 4) :
    parseBerRecursiveO D leaf (d + 1) ((nestedIndef k 1).take j) = (.err (.incomplete (.size 1)), j) := by
  match j, hj with
  | 0, _ => simp only [List.take_zero]; rfl
  | 1, _ => rfl
  | j + 2, hj =>
    simp only [nestedIndef, List.take_succ_cons]
    obtain ⟨m, hm⟩ : ∃ m, j = 2 * m ∨ j = 2 * m + 1 := ⟨j / 2, by omega⟩
    rcases hm with rfl | rfl
    · rw [nulls_take _ (by omega)]
      have := seq_cut D leaf d m [] (by simp) rfl
      rw [List.append_nil] at this
      rw [this]
      congr 1
      simp; omega
    · obtain ⟨b, hb, e⟩ := nulls_take_odd (m := m) (k := k) (by omega)
      rw [e, seq_cut D leaf d m [b] (by simp) (by rcases hb with rfl | rfl <;> rfl)]
      congr 1
      simp; omega

/-- C145: the bound is reached: for a SEQUENCE of indefinite length with `k` NULLs, `n = 2 * k + 4` octets in all, the
reader is told to read one octet after the other, and every call looks at all octets again. -/
theorem C145_indefinite (D : Deps) (leaf : Any → Nat) (d k : Nat) (hd : 1 ≤ d) (rest : Bytes) (fuel : Nat)
    (hf : 2 * k + 4 < fuel) :
    (nestedIndef k 1).length = 2 * k + 4 ∧
    ∃ o, readStream (parseBerRecursive D (d + 1)) (nestedIndef k 1 ++ rest) fuel 0 = some (.ok ([], o), 2 * k + 4) ∧
      2 * (readWork (parseBerRecursiveO D leaf (d + 1)) (nestedIndef k 1 ++ rest) fuel 0).2 =
        (2 * k + 4) * (2 * k + 3) + 2 * (parseBerRecursiveO D leaf (d + 1) (nestedIndef k 1)).2 := by
  have hlen : (nestedIndef k 1).length = 2 * k + 4 := by rw [nestedIndef_length]
  obtain ⟨-, ⟨o, ho⟩, -⟩ := C78_nested_cost D k 1 (d + 1) (by omega) (by omega) (by omega)
  have key : ∀ fuel j, j ≤ 2 * k + 4 → 2 * k + 4 < fuel + j →
      (readWork (parseBerRecursiveO D leaf (d + 1)) (nestedIndef k 1 ++ rest) fuel j).1 =
        some (.ok ([], o), 2 * k + 4) ∧
      2 * (readWork (parseBerRecursiveO D leaf (d + 1)) (nestedIndef k 1 ++ rest) fuel j).2 + j * (j - 1) =
        (2 * k + 4) * (2 * k + 3) + 2 * (parseBerRecursiveO D leaf (d + 1) (nestedIndef k 1)).2 := by
    intro fuel
    induction fuel with
    | zero => intro j h1 h2; omega
    | succ fuel ih =>
      intro j h1 h2
      have ht : (nestedIndef k 1 ++ rest).take j = (nestedIndef k 1).take j := by
        rw [List.take_append_of_le_length (by omega)]
      by_cases hj : j = 2 * k + 4
      · subst hj
        have e : (nestedIndef k 1 ++ rest).take (2 * k + 4) = nestedIndef k 1 := by
          rw [ht, ← hlen, List.take_length]
        rw [readWork_last (by rw [e, ho]; intro n hn; cases hn), e, ho]
        refine ⟨rfl, ?_⟩
        dsimp only
        have : (2 * k + 4) * (2 * k + 4 - 1) = (2 * k + 4) * (2 * k + 3) := rfl
        omega
      · have hc := nestedIndef_cut D leaf d k j (by omega)
        rw [readWork_more (n := 1) (by rw [ht, ← (C143_same_results D leaf (d + 1) 0 _).1, hc])
          (by rw [List.length_append]; omega)]
        obtain ⟨i1, i2⟩ := ih (j + 1) (by omega) (by omega)
        refine ⟨i1, ?_⟩
        rw [ht, hc]
        dsimp only
        have e : (j + 1) * (j + 1 - 1) = j * (j - 1) + 2 * j := by
          cases j with
          | zero => rfl
          | succ j =>
            simp only [Nat.add_sub_cancel]
            rw [Nat.mul_comm (j + 1 + 1)]
            have := Nat.mul_add (j + 1) j 2
            show (j + 1) * (j + 2) = _
            omega
        omega
  obtain ⟨k1, k2⟩ := key fuel 0 (Nat.zero_le _) (by omega)
  refine ⟨hlen, o, ?_, by simpa using k2⟩
  rw [← C145_same_results D leaf]
  exact k1

example := C145_indefinite Tests.D0 Tests.unitLeaf 49 3 (by decide) [9] 11 (by decide)

end Verif
