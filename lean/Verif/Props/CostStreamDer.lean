import Verif.Props.CostStream
import Verif.Props.Fail
import Verif.Props.FailTyped
/-!
# A reader of a stream of DER: C145
-/
namespace Verif
open Outcome Spec Tests

/-- A DER call that asks for more octets has looked at the header only, and at no more than two octets after it. -/
theorem der_vain_octets {D : Deps} {leaf : Any → Nat} {d n : Nat} {i : Bytes} (h : DerNeeds d i n) :
    (parseDerRecursiveO D leaf d i).2 ≤ i.length + 2 := by
  have head : ∀ {hb c : Bytes} {h : Header}, DerHeader hb h →
      headerFromDer (hb ++ c) = .ok (c, h) ∧ (lookHeader headerFromDer (hb ++ c)).2 ≤ (hb ++ c).length := by
    intro hb c h H
    exact ⟨headerFromDer_iff.2 ⟨hb, rfl, H⟩, (octets_headerFromDer _).2⟩
  cases h with
  | header _ _ hc =>
    have h1 := headerFromDer_incomplete.2 hc
    have h2 := (octets_headerFromDer i).2
    unfold parseDerRecursiveO Tick.bind
    simp only [lookHeader, h1] at h2 ⊢
    omega
  | foreign hb c h l H hl hs hu hd hc =>
    obtain ⟨h1, h2⟩ := head (c := c) H
    have h3 := derUnknownO_free (i := c) (d := d) H.definite
    have hm : ¬ maxObjectSize < l := by unfold maxObjectSize; omega
    unfold parseDerRecursiveO Tick.bind
    simp only [lookHeader, h1] at h2 ⊢
    simp only [hl, hm, if_false, derReadElementContentRecursiveO, ne_eq, hu, not_false_eq_true, if_true, h3]
    omega
  | universal hb c h l H hl hs hu hc =>
    obtain ⟨h1, h2⟩ := head (c := c) H
    have hm : ¬ maxObjectSize < n := by unfold maxObjectSize; omega
    unfold parseDerRecursiveO Tick.bind
    simp only [lookHeader, h1] at h2 ⊢
    simp only [hl, hm, if_false, derReadElementContentRecursiveO, ne_eq, hu, not_true_eq_false,
      derReadElementContentAsO, Length.definite?, liftRes, Outcome.mapErr, Tick.bind, Tick.free, hc, if_true]
    omega
  | emptyBits hb h H hl hu ht hk =>
    obtain ⟨h1, h2⟩ := head (c := []) H
    rw [List.append_nil] at h1 h2
    have hm : ¬ maxObjectSize < 0 := by omega
    unfold parseDerRecursiveO Tick.bind
    simp only [lookHeader, h1] at h2 ⊢
    simp only [hl, hm, if_false, derReadElementContentRecursiveO, ne_eq, hu, not_true_eq_false, ht, hk,
      derReadElementContentAsO, Length.definite?, liftRes, Outcome.mapErr, Tick.bind, Tick.free, List.length_nil,
      Tag.bitString, if_true, lookTwo]
    simp only [derReadContentBitstring]
    simp
    omega

/-- After a complete header it is asked for octets once. -/
theorem der_needs_once {d n n' : Nat} {i t : Bytes} (h : DerNeeds d i n) (hc : ∀ m, ¬ HeaderCut false i (.need m))
    (ht : t.length = n) : ¬ DerNeeds d (i ++ t) n' := by
  have key : ∀ {hb c : Bytes} {h : Header} {l : Nat}, DerHeader hb h → h.length = .definite l → l ≤ c.length →
      (c = [] → h.cls = .universal → h.tag = 3 → h.constructed = false → False) → ¬ DerNeeds d (hb ++ c) n' := by
    intro hb c h l H hl hle hb0 hn
    have h1 : headerFromDer (hb ++ c) = .ok (c, h) := headerFromDer_iff.2 ⟨hb, rfl, H⟩
    generalize hj : hb ++ c = j at hn h1
    cases hn with
    | header _ _ h2 => rw [headerFromDer_incomplete.2 h2] at h1; cases h1
    | foreign hb' c' h' l' H' hl' _ _ _ h4 =>
      rw [headerFromDer_iff.2 ⟨hb', rfl, H'⟩] at h1
      cases h1
      rw [hl] at hl'
      cases hl'
      omega
    | universal hb' c' h' l' H' hl' _ _ h4 =>
      rw [headerFromDer_iff.2 ⟨hb', rfl, H'⟩] at h1
      cases h1
      rw [hl] at hl'
      cases hl'
      omega
    | emptyBits _ h' H' hl' h2 h3 h4 =>
      rw [headerFromDer_iff.2 ⟨j, (List.append_nil _).symm, H'⟩] at h1
      cases h1
      exact hb0 rfl h2 h3 h4
  cases h with
  | header _ _ h => exact absurd h (hc _)
  | foreign hb c h l H hl _ hu _ h4 =>
    rw [List.append_assoc]
    exact key H hl (by rw [List.length_append]; omega) fun _ h => absurd h hu
  | universal hb c h l H hl _ _ h4 =>
    rw [List.append_assoc]
    refine key H hl (by rw [List.length_append]; omega) fun h _ _ _ => ?_
    have := congrArg List.length h
    rw [List.length_append, List.length_nil] at this
    omega
  | emptyBits _ h H hl h2 h3 h4 =>
    refine key H hl (Nat.zero_le _) fun h _ _ _ => ?_
    subst h
    simp at ht

private theorem ident_pos {id : Bytes} {cls : Class} {k : Bool} {num : Nat} (h : IdentOctets id cls k num) : 1 ≤ id.length := by
  cases h <;> simp

private theorem len_pos {len : Bytes} {l : Length} (h : LenOctets len l) : 1 ≤ len.length := by
  cases h <;> simp

private theorem der_header_two {hb : Bytes} {h : Header} (H : DerHeader hb h) : 2 ≤ hb.length := by
  obtain ⟨id, len, num, rfl, h1, h2, -⟩ := H.octets
  have := ident_pos h1
  have := len_pos h2
  rw [List.length_append]
  omega

private theorem ident_low {b : UInt8} {t id rest : Bytes} {cls : Class} {k : Bool} {num : Nat} (hb : b.toNat % 32 ≠ 31)
    (h : IdentOctets id cls k num) (e : b :: t = id ++ rest) : id = [b] ∧ rest = t := by
  cases h with
  | low b' _ => simp at e; exact ⟨by rw [e.1], e.2.symm⟩
  | high b' ms last h1 _ _ =>
    simp at e
    rw [← e.1] at h1
    exact absurd h1 hb

/-- What is asked after no octet, and after one. -/
private theorem cut_nil {n : Nat} (h : HeaderCut false [] (.need n)) : n = 1 := by
  have := headerFromDer_incomplete.2 h
  cases this
  rfl

private theorem cut_one {n : Nat} {b : UInt8} (h : HeaderCut false [b] (.need n)) : n = 1 ∧ b.toNat % 32 ≠ 31 := by
  generalize hi : [b] = i at h
  have hlen := congrArg List.length hi
  generalize ha : CutAnswer.need n = a at h
  cases h with
  | empty => cases hi
  | tag => cases ha
  | noLength _ cls k num h1 h2 =>
    cases ha
    refine ⟨rfl, ?_⟩
    cases h1 with
    | low b' h => cases hi; exact h
    | high b' ms last _ _ _ => simp at hlen
  | length id cls k num b' ds h1 =>
    exfalso
    have := ident_pos h1
    simp at hlen
    omega

/-- A header with a low tag number is cut in front of the length octets or inside them. -/
private theorem cut_low {b b1 : UInt8} {ds : Bytes} {n : Nat} (hb : b.toNat % 32 ≠ 31) (h : HeaderCut false (b :: b1 :: ds) (.need n)) :
    128 < b1.toNat ∧ ds.length < b1.toNat - 128 ∧ n = b1.toNat - 128 - ds.length := by
  generalize ha : CutAnswer.need n = a at h
  generalize hi : b :: b1 :: ds = i at h
  cases h with
  | empty => cases hi
  | tag => cases ha
  | noLength _ cls k num h1 h2 =>
    have := (ident_low hb h1 (rest := []) (by rw [List.append_nil]; exact hi)).2
    cases this
  | length id cls k num b' ds' h1 _ h2 h3 h4 =>
    have := (ident_low hb h1 hi).2
    cases this
    cases ha
    exact ⟨h2, h4, rfl⟩

/-- Work of a reader of DER, for any way to count: `A` and `A0` for any call, `V` and `V0` for a call in vain.  `N` says
when the parser `q` asks for how many octets: in front of the end of the header, and after it once. -/
theorem der_read_work (q : Bytes → IRes BerError BerObject) (N : Bytes → Nat → Prop)
    (hN : ∀ i n, q i = .err (.incomplete (.size n)) ↔ N i n) (hcut : ∀ i n, HeaderCut false i (.need n) → N i n)
    (hhead : ∀ i n, N i n → HeaderCut false i (.need n) ∨ ∃ hb c h, i = hb ++ c ∧ DerHeader hb h)
    (honce : ∀ i n t n', N i n → (∀ m, ¬ HeaderCut false i (.need m)) → t.length = n → ¬ N (i ++ t) n')
    (p : Ticker BerObject) (hp : ∀ i, (p i).1 = q i)
    (A A0 V V0 : Nat) (hA : ∀ i, (p i).2 ≤ A * i.length + A0) (hV : ∀ i n, N i n → (p i).2 ≤ V * i.length + V0)
    (src : Bytes) (fuel : Nat) :
    (readWork p src fuel 0).1 = readStream q src fuel 0 ∧
    (∀ r m, readStream q src fuel 0 = some (r, m) →
      (readWork p src fuel 0).2 ≤ (A + V) * m + (A0 + 4 * V0 + 3 * V)) ∧
    (readWork p src fuel 0).2 ≤ (A + V) * src.length + (A0 + 4 * V0 + 3 * V) := by
  have early : ∀ i n, N i n → i.length < 2 → HeaderCut false i (.need n) := by
    intro i n h hi
    rcases hhead i n h with h | ⟨hb, c, h', rfl, H⟩
    · exact h
    · have := der_header_two H
      rw [List.length_append] at hi
      omega
  -- work from `k` on: `v` for each octet and `c` once, besides the last call
  let S : Nat → Nat → Nat → Prop := fun k v c => ∀ fuel,
    (readWork p src fuel k).1 = readStream q src fuel k ∧
    (∀ r m, readStream q src fuel k = some (r, m) → k ≤ m ∧
      (readWork p src fuel k).2 ≤ A * m + A0 + v * m + c) ∧
    (readWork p src fuel k).2 ≤ A * src.length + A0 + v * src.length + c
  have step : ∀ k v c v' c', k ≤ src.length →
      (∀ n, N (src.take k) n → (p (src.take k)).2 ≤ v' * k + c') →
      (∀ n, N (src.take k) n → k + n ≤ src.length → S (k + n) v c) → S k (v + v') (c + c') := by
    intro k v c v' c' hk hv hn fuel
    cases fuel with
    | zero => exact ⟨rfl, fun r m h => (nomatch h), by simp [readWork]⟩
    | succ fuel =>
      have hlen : (src.take k).length = k := by rw [List.length_take]; omega
      have hs := hp (src.take k)
      have hb := hA (src.take k)
      rw [hlen] at hb
      have m1 : ∀ x, k ≤ x → A * k ≤ A * x := fun x h => Nat.mul_le_mul_left _ h
      have m2 : ∀ x, k ≤ x → v' * k ≤ v' * x := fun x h => Nat.mul_le_mul_left _ h
      have e : ∀ x, (v + v') * x = v * x + v' * x := fun x => Nat.add_mul _ _ _
      by_cases hx : ∃ n, q (src.take k) = .err (.incomplete (.size n))
      · obtain ⟨n, hx⟩ := hx
        have hd := (hN _ n).1 hx
        have h1 := hv n hd
        have h2 := hn n hd
        rw [hx] at hs
        unfold readWork readStream
        rw [hs, hx]
        dsimp only
        by_cases hf : k + n ≤ src.length
        · rw [if_pos hf, if_pos hf]
          obtain ⟨i1, i2, i3⟩ := h2 hf fuel
          refine ⟨i1, fun r m h => ?_, ?_⟩
          · obtain ⟨j1, j2⟩ := i2 r m h
            have := m2 m (by omega)
            refine ⟨by omega, ?_⟩
            rw [e]
            dsimp only
            omega
          · have := m2 _ hk
            rw [e]
            dsimp only
            omega
        · rw [if_neg hf, if_neg hf]
          refine ⟨rfl, fun r m h => (nomatch h), ?_⟩
          have := m2 _ hk
          rw [e]
          dsimp only
          omega
      · have h1 : readStream q src (fuel + 1) k = some (q (src.take k), k) := by
          unfold readStream
          generalize q (src.take k) = x at hx
          cases x with
          | err e =>
            cases e with
            | incomplete m =>
              cases m with
              | size n => exact absurd ⟨n, rfl⟩ hx
              | unknown => rfl
            | _ => rfl
          | _ => rfl
        have h2 : readWork p src (fuel + 1) k =
            (some (q (src.take k), k), (p (src.take k)).2) := by
          unfold readWork
          rw [hs]
          generalize q (src.take k) = x at hx
          cases x with
          | err e =>
            cases e with
            | incomplete m =>
              cases m with
              | size n => exact absurd ⟨n, rfl⟩ hx
              | unknown => rfl
            | _ => rfl
          | _ => rfl
        rw [h1, h2]
        refine ⟨rfl, fun r m h => ?_, ?_⟩
        · cases h
          exact ⟨Nat.le_refl _, by dsimp only; omega⟩
        · have := m1 _ hk
          dsimp only
          omega
  have vain : ∀ k n, k ≤ src.length → N (src.take k) n →
      (p (src.take k)).2 ≤ V * k + V0 := by
    intro k n hk h
    have := hV _ n h
    rwa [List.length_take, Nat.min_eq_left hk] at this
  have more : ∀ k n, src.take (k + n) = src.take k ++ (src.drop k).take n := fun k n => List.take_add
  -- the header is complete
  have s3 : ∀ k, k ≤ src.length → (∀ m, ¬ HeaderCut false (src.take k) (.need m)) → S k V V0 := by
    intro k hk hc
    have := step k 0 0 V V0 hk (fun n h => vain k n hk h) (fun n h hf => ?_)
    · simpa using this
    · have h0 : ∀ n', ¬ N (src.take (k + n)) n' := by
        intro n'
        rw [more]
        exact honce _ _ _ _ h hc (by rw [List.length_take, List.length_drop]; omega)
      have := step (k + n) 0 0 0 0 hf (fun n h => absurd h (h0 n)) (fun n h => absurd h (h0 n))
      simpa using this
  -- two octets
  have s2 : ∀ b rest, src = b :: rest → b.toNat % 32 ≠ 31 → 2 ≤ src.length → S 2 V (2 * V0 + 2 * V) := by
    intro b rest hsrc hb h2
    obtain ⟨b1, t, rfl⟩ : ∃ b1 t, rest = b1 :: t := by
      cases rest with
      | nil => subst hsrc; simp at h2
      | cons b1 t => exact ⟨b1, t, rfl⟩
    by_cases hc : ∃ m, HeaderCut false (src.take 2) (.need m)
    · have := step 2 V V0 0 (V * 2 + V0) h2 (fun n h => by have := vain 2 n h2 h; omega) (fun n h hf => ?_)
      · rw [show 2 * V0 + 2 * V = V0 + (V * 2 + V0) by omega]
        simpa using this
      · obtain ⟨m, hc⟩ := hc
        have hh : HeaderCut false (src.take 2) (.need n) := by
          have h1 := (hN _ n).2 h
          have h2 := (hN _ m).2 (hcut _ _ hc)
          rw [h1] at h2
          cases h2
          exact hc
        refine s3 (2 + n) hf fun m' hc' => ?_
        subst hsrc
        have c1 := cut_low (ds := []) hb (by simpa using hh)
        rw [show List.take (2 + n) (b :: b1 :: t) = b :: b1 :: t.take n by rw [Nat.add_comm]; rfl] at hc'
        have c2 := cut_low hb hc'
        simp only [List.length_cons] at hf
        rw [List.length_take] at c2
        simp only [List.length_nil] at c1
        omega
    · have := s3 2 h2 (fun m h => hc ⟨m, h⟩)
      intro fuel
      obtain ⟨a1, a2, a3⟩ := this fuel
      exact ⟨a1, fun r m h => ⟨(a2 r m h).1, by have := (a2 r m h).2; omega⟩, by omega⟩
  have s1 : 1 ≤ src.length → S 1 V (3 * V0 + 3 * V) := by
    intro h1
    obtain ⟨b, rest, hsrc⟩ : ∃ b rest, src = b :: rest := by
      cases src with
      | nil => simp at h1
      | cons b t => exact ⟨b, t, rfl⟩
    have ht : src.take 1 = [b] := by rw [hsrc]; rfl
    rw [show 3 * V0 + 3 * V = 2 * V0 + 2 * V + (V + V0) by omega]
    refine step 1 V (2 * V0 + 2 * V) 0 (V + V0) h1 (fun n h => by have := vain 1 n h1 h; omega) (fun n h hf => ?_)
    rw [ht] at h
    obtain ⟨rfl, hb⟩ := cut_one (early _ n h (by simp))
    exact s2 b rest hsrc hb hf
  have s0 : S 0 V (4 * V0 + 3 * V) := by
    rw [show 4 * V0 + 3 * V = 3 * V0 + 3 * V + V0 by omega]
    refine step 0 V (3 * V0 + 3 * V) 0 V0 (Nat.zero_le _) (fun n h => by have := vain 0 n (Nat.zero_le _) h; omega) (fun n h hf => ?_)
    rw [List.take_zero] at h
    obtain rfl := cut_nil (early _ n h (by simp))
    exact s1 (by omega)
  obtain ⟨a1, a2, a3⟩ := s0 fuel
  have e : ∀ x, (A + V) * x = A * x + V * x := fun x => Nat.add_mul _ _ _
  refine ⟨a1, fun r m h => ?_, ?_⟩
  · have := (a2 r m h).2
    rw [e]
    omega
  · rw [e]
    omega

theorem der_needs_head {d : Nat} (i : Bytes) (n : Nat) (h : DerNeeds d i n) :
    HeaderCut false i (.need n) ∨ ∃ hb c h, i = hb ++ c ∧ DerHeader hb h := by
  cases h with
  | header _ _ h => exact .inl h
  | foreign hb c h l H => exact .inr ⟨hb, c, h, rfl, H⟩
  | universal hb c h l H => exact .inr ⟨hb, c, h, rfl, H⟩
  | emptyBits _ h H => exact .inr ⟨i, [], h, (List.append_nil _).symm, H⟩

theorem der_typed_head {tag : Nat} (i : Bytes) (n : Nat) (h : DerTypedNeeds tag i n) :
    HeaderCut false i (.need n) ∨ ∃ hb c h, i = hb ++ c ∧ DerHeader hb h := by
  cases h with
  | header _ _ h => exact .inl h
  | contents hb c h l H => exact .inr ⟨hb, c, h, rfl, H⟩
  | emptyBits _ h H => exact .inr ⟨i, [], h, (List.append_nil _).symm, H⟩

theorem der_typed_once {tag n n' : Nat} {i t : Bytes} (h : DerTypedNeeds tag i n)
    (hc : ∀ m, ¬ HeaderCut false i (.need m)) (ht : t.length = n) : ¬ DerTypedNeeds tag (i ++ t) n' := by
  have key : ∀ {hb c : Bytes} {h : Header} {l : Nat}, DerHeader hb h → h.length = .definite l → l ≤ c.length →
      c ≠ [] → ¬ DerTypedNeeds tag (hb ++ c) n' := by
    intro hb c h l H hl hle hb0 hn
    have h1 : headerFromDer (hb ++ c) = .ok (c, h) := headerFromDer_iff.2 ⟨hb, rfl, H⟩
    generalize hj : hb ++ c = j at hn h1
    cases hn with
    | header _ _ h2 => rw [headerFromDer_incomplete.2 h2] at h1; cases h1
    | contents hb' c' h' l' H' _ hl' h4 =>
      rw [headerFromDer_iff.2 ⟨hb', rfl, H'⟩] at h1
      cases h1
      rw [hl] at hl'
      cases hl'
      omega
    | emptyBits _ h' H' =>
      rw [headerFromDer_iff.2 ⟨j, (List.append_nil _).symm, H'⟩] at h1
      cases h1
      exact hb0 rfl
  cases h with
  | header _ _ h => exact absurd h (hc _)
  | contents hb c h l H _ hl h4 =>
    rw [List.append_assoc]
    refine key H hl (by rw [List.length_append]; omega) fun h => ?_
    have := congrArg List.length h
    rw [List.length_append, List.length_nil] at this
    omega
  | emptyBits _ h H _ hl =>
    refine key H hl (Nat.zero_le _) fun h => ?_
    subst h
    simp at ht

/-- The same for `parse_der_with_tag`. -/
theorem der_typed_vain {D : Deps} {leaf : Any → Nat} {tag n : Nat} {i : Bytes} (h : DerTypedNeeds tag i n) :
    (parseDerWithTagO D leaf tag i).2 ≤ i.length + 2 := by
  have head : ∀ {hb c : Bytes} {h : Header}, DerHeader hb h →
      headerFromDer (hb ++ c) = .ok (c, h) ∧ (lookHeader headerFromDer (hb ++ c)).2 ≤ (hb ++ c).length := by
    intro hb c h H
    exact ⟨headerFromDer_iff.2 ⟨hb, rfl, H⟩, (octets_headerFromDer _).2⟩
  cases h with
  | header _ _ hc =>
    have h1 := headerFromDer_incomplete.2 hc
    have h2 := (octets_headerFromDer i).2
    unfold parseDerWithTagO Tick.bind
    simp only [lookHeader, h1] at h2 ⊢
    omega
  | contents hb c h l H ht hl hc =>
    obtain ⟨h1, h2⟩ := head (c := c) H
    unfold parseDerWithTagO Tick.bind
    simp only [lookHeader, h1] at h2 ⊢
    simp only [hl, ht, Header.assertTag, derReadElementContentAsO, Length.definite?, liftRes, Outcome.mapErr, Tick.bind,
      Tick.free, hc, if_true]
    omega
  | emptyBits hb h H ht hl h3 hk =>
    obtain ⟨h1, h2⟩ := head (c := []) H
    rw [List.append_nil] at h1 h2
    unfold parseDerWithTagO Tick.bind
    simp only [lookHeader, h1] at h2 ⊢
    simp only [hl, ht, h3, hk, Header.assertTag, derReadElementContentAsO, Length.definite?, liftRes, Outcome.mapErr,
      Tick.bind, Tick.free, List.length_nil, Tag.bitString, if_true, lookTwo]
    simp [derReadContentBitstring]
    omega

/-- C145: counting does not change the results of a reader of DER. -/
theorem C145_der_same_results (D : Deps) (leaf : Any → Nat) (d : Nat) (src : Bytes) (fuel : Nat) :
    (readWork (parseDerRecursiveO D leaf d) src fuel 0).1 = readStream (parseDerRecursive D d) src fuel 0 := by
  have h1 : ∀ k, (readWork (parseDerRecursiveO D leaf d) src fuel k).1 = readStream (parseDerRecursive D d) src fuel k := by
    induction fuel with
    | zero => exact fun _ => rfl
    | succ fuel ih =>
      intro k
      have h := (C143_same_results D leaf d 0 (src.take k)).2.2.1
      unfold readWork readStream
      rw [h]
      generalize parseDerRecursive D d (src.take k) = x
      cases x with
      | err e =>
        cases e with
        | incomplete m =>
          cases m with
          | size n =>
            dsimp only
            split
            · exact ih _
            · rfl
          | unknown => rfl
        | _ => rfl
      | _ => rfl
  exact h1 0

/-- C145: a reader that follows the hints of `parse_der` does linear work, whatever the octets are. -/
theorem C145_der (D : Deps) (leaf : Any → Nat) (K : Nat) (hl : ∀ a, leaf a ≤ K * (a.data.length + 2))
    (d : Nat) (src : Bytes) (fuel : Nat) :
    (∀ r m, readStream (parseDerRecursive D d) src fuel 0 = some (r, m) →
      (readWork (parseDerRecursiveO D leaf d) src fuel 0).2 ≤ (d + K + 2) * m + 13) ∧
    (readWork (parseDerRecursiveO D leaf d) src fuel 0).2 ≤ (d + K + 2) * src.length + 13 := by
  have h := der_read_work _ _ (C85_incomplete_iff D d) (fun _ _ h => .header _ _ h) der_needs_head
    (fun _ _ _ _ h hc ht => der_needs_once h hc ht)
    (parseDerRecursiveO D leaf d) (fun i => (C143_same_results D leaf d 0 i).2.2.1)
    (d + K + 1) 2 1 2 (fun i => C143_parse_der D leaf K hl d i)
    (fun i n h => by have := der_vain_octets (D := D) (leaf := leaf) h; omega) src fuel
  exact ⟨fun r m hr => by have := h.2.1 r m hr; omega, by have := h.2.2; omega⟩

set_option maxRecDepth 4000 in
example := (C145_der Tests.D0 Tests.unitLeaf 1 (fun a => by simp [Tests.unitLeaf]) 50
  [0x30, 0x82, 0x00, 0x03, 0x02, 0x01, 0x05, 9] 8).1 _ 7 rfl

/-- C145: such a reader calls `parse_der` no more than five times, however long the element is. -/
theorem C145_der_calls (D : Deps) (d : Nat) (src : Bytes) (fuel : Nat) :
    (readWork (fun i => (parseDerRecursive D d i, 1)) src fuel 0).2 ≤ 5 := by
  have h := der_read_work _ _ (C85_incomplete_iff D d) (fun _ _ h => .header _ _ h) der_needs_head
    (fun _ _ _ _ h hc ht => der_needs_once h hc ht)
    (fun i => (parseDerRecursive D d i, 1)) (fun _ => rfl) 0 1 0 1 (fun _ => by simp) (fun _ _ _ => by simp) src fuel
  have := h.2.2
  omega

/-- C145: and five calls are reached: of nothing, the identifier octet, the first length octet, all length octets, and the
element. -/
theorem C145_der_five (D : Deps) (fuel : Nat) :
    readWork (fun i => (parseDerRecursive D 50 i, 1)) [0x04, 0x81, 0x01, 0xff] (fuel + 5) 0 =
      (some (.ok ([], .mk { Header.new .universal false 4 (.definite 1) with rawTag := some [0x04] } (.octetString [0xff])), 4), 5) := by
  rfl

/-- C145: the same for the functions for one type, i.e. `parse_der_with_tag`. -/
theorem C145_der_typed (D : Deps) (leaf : Any → Nat) (K : Nat) (hl : ∀ a, leaf a ≤ K * (a.data.length + 2))
    (tag : Nat) (src : Bytes) (fuel : Nat) :
    (readWork (parseDerWithTagO D leaf tag) src fuel 0).1 = readStream (parseDerWithTag D tag) src fuel 0 ∧
    (∀ r m, readStream (parseDerWithTag D tag) src fuel 0 = some (r, m) →
      (readWork (parseDerWithTagO D leaf tag) src fuel 0).2 ≤ (K + 52) * m + 13) ∧
    (readWork (parseDerWithTagO D leaf tag) src fuel 0).2 ≤ (K + 52) * src.length + 13 ∧
    (readWork (fun i => (parseDerWithTag D tag i, 1)) src fuel 0).2 ≤ 5 := by
  have h := der_read_work _ _ (C86_der_incomplete_iff D tag) (fun _ _ h => .header _ _ h) der_typed_head
    (fun _ _ _ _ h hc ht => der_typed_once h hc ht)
    (parseDerWithTagO D leaf tag) (fun i => (C143_same_results D leaf 0 tag i).2.2.2)
    (K + 51) 2 1 2 (fun i => C143_parse_der_with_tag D leaf K hl tag i)
    (fun i n h => by have := der_typed_vain (D := D) (leaf := leaf) h; omega) src fuel
  have g := der_read_work _ _ (C86_der_incomplete_iff D tag) (fun _ _ h => .header _ _ h) der_typed_head
    (fun _ _ _ _ h hc ht => der_typed_once h hc ht)
    (fun i => (parseDerWithTag D tag i, 1)) (fun _ => rfl) 0 1 0 1 (fun _ => by simp) (fun _ _ _ => by simp) src fuel
  exact ⟨h.1, fun r m hr => by have := h.2.1 r m hr; omega, by have := h.2.2; omega, by have := g.2.2; omega⟩

set_option maxRecDepth 4000 in
example := (C145_der_typed Tests.D0 Tests.unitLeaf 1 (fun a => by simp [Tests.unitLeaf]) 2
  [0x02, 0x01, 0x05, 9] 8).2.1 _ 3 rfl

/-- C145: no number of calls is enough for a reader of BER: of an element of indefinite length it is asked for the octets
one by one, and calls `parse_ber` for each of them. -/
theorem C145_ber_calls_counterexample (D : Deps) (k : Nat) :
    (nestedIndef k 1).length = 2 * k + 4 ∧
    (readWork (fun i => (parseBerRecursive D 50 i, 1)) (nestedIndef k 1) (2 * k + 5) 0).2 = 2 * k + 5 := by
  have hlen : (nestedIndef k 1).length = 2 * k + 4 := by rw [nestedIndef_length]
  refine ⟨hlen, ?_⟩
  have key : ∀ m j, j + m = 2 * k + 4 →
      (readWork (fun i => (parseBerRecursive D 50 i, 1)) (nestedIndef k 1) (m + 1) j).2 = m + 1 := by
    intro m
    induction m with
    | zero =>
      intro j hj
      obtain ⟨-, ⟨o, ho⟩, -⟩ := C78_nested_cost D k 1 50 (by omega) (by omega) (by omega)
      unfold readWork
      rw [List.take_of_length_le (by omega), ho]
    | succ m ih =>
      intro j hj
      have h1 := nestedIndef_cut D (fun _ => 0) 49 k j (by omega)
      have h2 := (C143_same_results D (fun _ => 0) 50 0 ((nestedIndef k 1).take j)).1
      rw [h1] at h2
      unfold readWork
      rw [← h2]
      dsimp only
      rw [if_pos (by omega), ih (j + 1) (by omega)]
      omega
  exact key (2 * k + 4) 0 (by omega)

/-- What `readStream` answers is the answer for what it has read. -/
theorem readStream_answer {E α : Type} {q : Bytes → IRes E α} {src : Bytes} {r : IRes E α} {m : Nat} :
    ∀ {fuel k : Nat}, k ≤ src.length → readStream q src fuel k = some (r, m) → m ≤ src.length ∧ r = q (src.take m) := by
  intro fuel
  induction fuel with
  | zero => intro k hk h; cases h
  | succ fuel ih =>
    intro k hk h
    unfold readStream at h
    split at h
    · split at h
      · rename_i hn
        exact ih hn h
      · cases h
    · cases h
      exact ⟨hk, rfl⟩

/-- A program that reads values from `src` one after the other with the reader `readStream`, at most `n`, and stops at the
first one that it does not get; the octets looked at in all calls. -/
def readAllWork {α : Type} (p : Ticker α) (fuel : Nat) : Nat → Bytes → List α × Nat
  | 0, _ => ([], 0)
  | n + 1, src =>
    match (readWork p src fuel 0).1 with
    | some (.ok (_, a), m) =>
      (a :: (readAllWork p fuel n (src.drop m)).1,
        (readWork p src fuel 0).2 + (readAllWork p fuel n (src.drop m)).2)
    | _ => ([], (readWork p src fuel 0).2)

/-- C145: to read a whole stream of DER values in this way is linear work, in the size of the stream alone. -/
theorem C145_der_stream (D : Deps) (leaf : Any → Nat) (K : Nat) (hl : ∀ a, leaf a ≤ K * (a.data.length + 2))
    (d fuel n : Nat) (src : Bytes) :
    (readAllWork (parseDerRecursiveO D leaf d) fuel n src).2 ≤ (d + K + 9) * src.length + 13 := by
  induction n generalizing src with
  | zero => simp [readAllWork]
  | succ n ih =>
    have hb := (C145_der D leaf K hl d src fuel).2
    have le : (d + K + 2) * src.length + 13 ≤ (d + K + 9) * src.length + 13 :=
      Nat.add_le_add_right (Nat.mul_le_mul_right _ (by omega)) _
    unfold readAllWork
    split
    · rename_i rem o m h
      rw [C145_der_same_results] at h
      have h1 := (C145_der D leaf K hl d src fuel).1 _ m h
      obtain ⟨h2, h3⟩ := readStream_answer (Nat.zero_le _) h
      obtain ⟨hb', c, e, H, -⟩ := parseDerRecursive_sound h3.symm
      have h4 : 2 ≤ hb'.length := by
        have := headerFromDer_iff.2 ⟨hb', (List.append_nil _).symm, H⟩
        have := (octets_headerFromDer hb').1 _ this
        obtain ⟨id, len, num, rfl, g1, g2, -⟩ := H.octets
        rw [List.length_append]
        have a1 : ∀ {id : Bytes} {x : Class} {k : Bool} {num : Nat}, IdentOctets id x k num → 1 ≤ id.length := by
          intro id x k num h; cases h <;> simp
        have a2 : ∀ {len : Bytes} {l : Length}, LenOctets len l → 1 ≤ len.length := by
          intro len l h; cases h <;> simp
        have := a1 g1
        have := a2 g2
        omega
      have h5 := congrArg List.length e
      rw [List.length_take, List.length_append, List.length_append, Nat.min_eq_left h2] at h5
      have h6 := ih (src.drop m)
      rw [List.length_drop] at h6
      have h7 : (d + K + 9) * src.length = (d + K + 9) * m + (d + K + 9) * (src.length - m) := by
        rw [← Nat.mul_add]; congr 1; omega
      have h8 : (d + K + 9) * m = (d + K + 2) * m + 7 * m := by
        rw [← Nat.add_mul]
      dsimp only
      omega
    · exact Nat.le_trans hb le

/-- Three values, and a stream that ends inside the fourth. -/
example : (readAllWork (parseDerRecursiveO D0 unitLeaf 50) 6 10 [5, 0, 2, 1, 7, 4, 2, 1, 2, 4, 3, 1]).1.length = 3 := by
  rfl

end Verif
