import Verif.Props.BerFaults
import Verif.Props.ValidExact
/-!
# Property C121: exactly which BER documents are accepted
-/
namespace Verif
open Outcome Spec

/-! ## Lemmas -/

theorem element_pos {T X : Bytes → Prop} {n : Nat} {e : Bytes} (H : Element T X n e) : 1 ≤ n := by
  cases H <;> omega

theorem element_frame {n : Nat} {e : Bytes} (H : Element LooseEoc LooseEoc n e) : ∃ h c, Framed n e h c := by
  cases H with
  | definite n l hb c h h1 h2 h3 _ => exact ⟨h, c, .definite hb c h h1 (by rw [h2, h3])⟩
  | indefinite n hb es t h h1 h2 h3 h4 => exact ⟨h, _, .indefinite n hb es t h rfl h1 h2 h3 h4⟩

theorem framed_mono {n m : Nat} {e c : Bytes} {h : Header} (H : Framed n e h c) (hm : n ≤ m) : Framed m e h c := by
  cases H with
  | definite hb c h h1 h2 => exact .definite hb c h h1 h2
  | indefinite k hb es t h hk h1 h2 h3 h4 =>
    obtain ⟨j, rfl⟩ : ∃ j, m = j + 2 := ⟨m - 2, by omega⟩
    exact .indefinite j hb es t h rfl h1 h2 (fun e he => Element.mono (h3 e he) (by omega)) h4

/-- The level of an element does not depend on how strictly it is read. -/
theorem element_level {n : Nat} {e : Bytes} (H : Element IsEoc LooseEoc n e) : ∀ {m}, Element LooseEoc LooseEoc m e →
    Element IsEoc LooseEoc m e := by
  induction H with
  | definite n l hb c h h1 h2 h3 h4 =>
    intro m hm
    have := element_pos hm
    obtain ⟨m, rfl⟩ : ∃ k, m = k + 1 := ⟨m - 1, by omega⟩
    exact .definite m l hb c h h1 h2 h3 h4
  | indefinite n hb es t h h1 h2 h3 h4 ih =>
    intro m hm
    generalize he : hb ++ (es.flatten ++ t) = e at hm
    cases hm with
    | definite m l hb' c h' g1 g2 g3 g4 =>
      obtain ⟨_, rfl⟩ := berHeader_unique h1 g1 he
      rw [h2] at g2
      cases g2
    | indefinite m hb' es' t' h' g1 g2 g3 g4 =>
      obtain ⟨rfl, rfl⟩ := berHeader_unique h1 g1 he
      rw [show t = [0, 0] from h4] at he
      obtain ⟨rfl, rfl, _⟩ := ends_list_unique (r := []) (r' := []) (fun x hx => ends_unique (element_ends (h3 x hx)))
        (fun x hx => element_not_loose (h3 x hx)) g3 g4 (by simpa using he)
      exact .indefinite m hb es _ h h1 h2 (fun x hx => ih x hx (g3 x hx)) rfl

theorem leaf_supported_constructed {D : Deps} {h : Header} {c : Bytes} {x : Content} (hx : Leaf D h c x)
    (hk : h.constructed = true) (hn : h.tag < 2 ^ 32) (hC : Composite h.cls h.tag) :
    BerSupported D h.cls true h.tag c := by
  refine ⟨hn, fun hu => ?_⟩
  have hC := hC.resolve_left (fun h => h hu)
  have strs : ∀ {t : Nat}, h.tag = t → t ∈ [4, 8, 11, 23, 24, 29] →
      ∀ s ∈ [StrKind.objectDescriptor, .t61, .videotex, .graphic, .general], h.tag = strTag s →
        IsUtf8 c ∧ D.charset s c = true := by
    intro t ht ht' s _ hs
    rw [ht] at hs
    subst hs
    exact absurd ht' (by cases s <;> decide)
  cases x with
  | octetString s =>
    have t := hx.2.1
    exact ⟨by omega, by omega, by omega, strs t (by decide), fun _ => by rw [t]; decide⟩
  | utcTime s =>
    obtain ⟨_, t, hs⟩ := hx
    exact ⟨by omega, fun _ => ⟨s, by rw [hk] at hs; exact hs⟩, by omega, strs t (by decide), fun _ => by rw [t]; decide⟩
  | generalizedTime s =>
    obtain ⟨_, t, hs⟩ := hx
    exact ⟨by omega, by omega, fun _ => ⟨s, by rw [hk] at hs; exact hs⟩, strs t (by decide), fun _ => by rw [t]; decide⟩
  | unknown a =>
    have t : h.tag = 8 ∨ h.tag = 11 ∨ h.tag = 29 := by
      obtain ⟨_, h1 | h1 | h1⟩ := hx
      · exact absurd hu h1
      · simp only [List.mem_cons, List.not_mem_nil, or_false] at h1 hC
        omega
      · simp only [List.mem_cons, List.not_mem_nil, or_false] at hC
        omega
    rcases t with t | t | t <;>
      exact ⟨by omega, by omega, by omega, strs t (by decide), fun _ => by rw [t]; decide⟩
  | str k s => exact absurd hx.2.2.1 (by rw [hk]; decide)
  | _ =>
    simp only [List.mem_cons, List.not_mem_nil, or_false] at hC
    first
    | exact hx.elim
    | (have := hx.2.2.1; rw [hk] at this; cases this)
    | (have := hx.2.1; omega)
    | (have := hx.2; omega)

theorem berDoc_supported {D : Deps} {N d n : Nat} {e : Bytes}
    (H : BerDoc LooseEoc (fun _ _ num _ => num < 2 ^ 32) N d n e) (hl : e.length < 2 ^ 64) :
    ∀ (m d' : Nat) (h : Header) (c : Bytes) (x : Content), m < 50 → Framed (m + 1) e h c → Denotes D d' h c x →
      BerDoc LooseEoc (BerSupported D) 50 d' (m + 1) e := by
  induction H with
  | primitive d n id len c0 cls num h1 h2 h3 h4 =>
    intro m d' h c x hm hF hD
    have H := berHeader_of h1 h2 h4 (by simp only [List.length_append] at hl; omega)
    obtain ⟨_, _, rfl, rfl⟩ := framed_unique (r := []) (r' := []) (.definite _ c0 _ H rfl)
      (framed_mono (m := 50) hF (by omega)) (by simp)
    cases hD with
    | leaf d' _ _ _ hx =>
      refine .primitive d' m id len c0 cls num h1 h2 h3 ⟨h4, fun hu => ?_⟩
      subst hu
      have := (leaf_supported hx rfl rfl h4).2 rfl
      exact ⟨this.1, this.2.1, this.2.2.1, this.2.2.2, by simp⟩
    | sequence _ _ _ _ _ hk => simp at hk
    | set _ _ _ _ _ hk => simp at hk
  | constructed d n id len c0 cls num h1 h2 h3 h4 =>
    intro m d' h c x hm hF hD
    have H := berHeader_of h1 h2 h4 (by simp only [List.length_append] at hl; omega)
    obtain ⟨_, _, rfl, rfl⟩ := framed_unique (r := []) (r' := []) (.definite _ c0 _ H rfl)
      (framed_mono (m := 50) hF (by omega)) (by simp)
    cases hD with
    | leaf d' _ _ _ hx => exact .constructed d' m id len c0 cls num h1 h2 h3 (leaf_supported_constructed hx rfl h4 h3)
    | sequence _ _ _ hc ht =>
      simp only at hc ht
      subst hc ht
      simp [Composite] at h3
    | set _ _ _ hc ht =>
      simp only at hc ht
      subst hc ht
      simp [Composite] at h3
  | constructedIndefinite d n id es cls num h1 h2 h3 h4 =>
    intro m d' h c x hm hF hD
    have H := berHeader_indefinite h1 h3
    generalize he : id ++ 0x80 :: (es.flatten ++ [0, 0]) = e at hF
    cases hF with
    | definite hb c h g1 g2 =>
      obtain ⟨_, rfl⟩ := berHeader_unique H g1 (x := es.flatten ++ [0, 0]) (x' := c) (by simpa using he)
      cases g2
    | indefinite k hb fs t h hk g1 g2 g3 g4 =>
      obtain ⟨rfl, rfl⟩ := berHeader_unique H g1 (x := es.flatten ++ [0, 0]) (x' := fs.flatten ++ t) (by simpa using he)
      obtain ⟨rfl, rfl, _⟩ := ends_list_unique (r := []) (r' := []) (fun x hx => ends_unique (element_ends (h4 x hx)))
        (fun x hx => element_not_loose (h4 x hx)) g3 g4 (by simpa using he)
      obtain rfl : m = k + 1 := by omega
      replace hD : Denotes D d' ⟨cls, true, num, .indefinite, some id⟩ es.flatten x := by simpa using hD
      rw [← he]
      generalize hb : es.flatten = body at hD
      cases hD with
      | leaf d' _ _ _ hx =>
        subst hb
        exact .constructedIndefinite d' k id es cls num h1 h2 (leaf_supported_constructed hx rfl h3 h2)
          fun x hx => element_level (h4 x hx) (g3 x hx)
      | sequence _ _ _ hc ht =>
        simp only at hc ht
        subst hc ht
        simp [Composite] at h2
      | set _ _ _ hc ht =>
        simp only at hc ht
        subst hc ht
        simp [Composite] at h2
  | list d n id len es num h1 hn h2 h3 ih =>
    intro m d' h c x hm hF hD
    have H := berHeader_of h1 h2 (by omega) (by simp only [List.length_append] at hl; omega)
    obtain ⟨_, _, rfl, rfl⟩ := framed_unique (r := []) (r' := []) (.definite _ es.flatten _ H rfl)
      (framed_mono (m := 50) hF (by omega)) (by simp)
    cases d' with
    | zero => cases hD
    | succ d' =>
      obtain ⟨ps, a1, a2, _⟩ := (denotes_list_iff rfl hn rfl).1 hD
      have e1 := ends_flatten_unique (fun x hx => berDoc_ends (h3 x hx)) (fs := ps.map Prod.fst) (fun f hf => by
        obtain ⟨p, hp, rfl⟩ := List.mem_map.1 hf
        exact read_framed (a2 p hp)) a1
      refine .list d' m id len es num h1 hn h2 fun e he => ?_
      have hmem := he
      rw [e1] at he
      obtain ⟨p, hp, rfl⟩ := List.mem_map.1 he
      obtain ⟨e', c', he', hF', hD'⟩ := parseBerRecursive_iff.1 (a2 p hp)
      rw [List.append_nil] at he'
      rw [← he'] at hF'
      refine ih _ hmem ?_ 49 d' _ _ _ (by omega) hF' hD'
      have := length_le_flatten hmem
      simp only [List.length_append] at hl
      omega
  | listIndefinite d n id es num h1 hn h3 h4 ih =>
    intro m d' h c x hm hF hD
    have H := berHeader_indefinite h1 (by omega)
    generalize he : id ++ 0x80 :: (es.flatten ++ [0, 0]) = e at hF
    cases hF with
    | definite hb c h g1 g2 =>
      obtain ⟨_, rfl⟩ := berHeader_unique H g1 (x := es.flatten ++ [0, 0]) (x' := c) (by simpa using he)
      cases g2
    | indefinite k hb fs t h hk g1 g2 g3 g4 =>
      obtain ⟨rfl, rfl⟩ := berHeader_unique H g1 (x := es.flatten ++ [0, 0]) (x' := fs.flatten ++ t) (by simpa using he)
      obtain ⟨rfl, rfl, _⟩ := ends_list_unique (r := []) (r' := []) (fun x hx => ends_unique (berDoc_ends (h3 x hx)))
        h4 g3 g4 (by simpa using he)
      obtain rfl : m = k + 1 := by omega
      replace hD : Denotes D d' ⟨.universal, true, num, .indefinite, some id⟩ es.flatten x := by simpa using hD
      rw [← he]
      cases d' with
      | zero => cases hD
      | succ d' =>
        obtain ⟨ps, a1, a2, _⟩ := (denotes_list_iff rfl hn rfl).1 hD
        have e1 := ends_flatten_unique (fun x hx => berDoc_ends (h3 x hx)) (fs := ps.map Prod.fst) (fun f hf => by
          obtain ⟨p, hp, rfl⟩ := List.mem_map.1 hf
          exact read_framed (a2 p hp)) a1
        refine .listIndefinite d' k id es num h1 hn (fun e he => ?_) h4
        have hmem := he
        rw [e1] at he
        obtain ⟨p, hp, rfl⟩ := List.mem_map.1 he
        obtain ⟨e', c', he', hF', hD'⟩ := parseBerRecursive_iff.1 (a2 p hp)
        rw [List.append_nil] at he'
        rw [← he'] at hF'
        obtain ⟨h'', c'', hF''⟩ := element_frame (g3 _ hmem)
        obtain ⟨_, _, rfl, rfl⟩ := framed_unique (r := []) (r' := []) hF' (framed_mono (m := 50) hF'' (by omega)) rfl
        refine ih _ hmem ?_ k d' _ _ _ (by omega) hF'' hD'
        have := length_le_flatten hmem
        simp only [List.length_append, List.length_cons] at hl
        omega

/-! ## C121 -/

/-- C121: among the BER documents of less than 2^64 octets with tag numbers below 2^32 and without elements of number 0 and
length 0 directly inside an indefinite length, `parse_ber_recursive` with the depth limit `d'` accepts exactly those
within the limits `BerSupported` that have at most `d'` levels of SEQUENCE and SET, and at most 50 of indefinite
lengths, at the outermost element and at the members of SEQUENCE and SET. -/
theorem C121_exact (D : Deps) (N d n : Nat) (d' : Nat) (e rest : Bytes)
    (H : BerDoc LooseEoc (fun _ _ num _ => num < 2 ^ 32) N d n e) (hl : e.length < 2 ^ 64) :
    (∃ o, parseBerRecursive D d' (e ++ rest) = .ok (rest, o)) ↔ BerDoc LooseEoc (BerSupported D) 50 d' 50 e := by
  refine ⟨?_, fun h => C121_accepted_partial D d' e rest h hl⟩
  rintro ⟨o, h⟩
  obtain ⟨e', c, he, hF, hD⟩ := parseBerRecursive_iff.1 h
  obtain rfl := List.append_cancel_right he
  exact berDoc_supported H hl 49 d' _ _ _ (by omega) hF hD

/-- C121 is false for 50 and more indefinite lengths one inside the other: `k + 1` SEQUENCEs of indefinite length are BER, and
are accepted by `parse_ber` if and only if there are at most 49 of them. -/
theorem C121_indefinite_nesting (D : Deps) (k : Nat) (rest : Bytes) (hk : (nestIndef (k + 1)).length < 2 ^ 64) :
    BerDoc LooseEoc (BerSupported D) 0 (k + 1) (k + 2) (nestIndef (k + 1)) ∧
    ((∃ o, parseBer D (nestIndef (k + 1) ++ rest) = .ok (rest, o)) ↔ k + 1 ≤ 49) := by
  have not_eoc : ∀ j, ¬ LooseEoc (nestIndef (j + 1)) := by
    rintro j ⟨h', H', _, hl⟩
    obtain ⟨_, rfl⟩ := berHeader_unique berHeader_seqIndef H' (x := nestIndef j ++ [0, 0]) (x' := []) (by simp [nestIndef])
    cases hl
  have doc : ∀ (P : Class → Bool → Nat → Bytes → Prop) (N k : Nat), BerDoc LooseEoc P N (k + 1) (k + 2) (nestIndef (k + 1)) := by
    intro P N k
    induction k with
    | zero => exact .listIndefinite 0 0 [0x30] [] 16 (minIdent_low 0x30 (by decide)) (.inl rfl) (by simp) (by simp)
    | succ k ih =>
      have := BerDoc.listIndefinite (X := LooseEoc) (P := P) (N := N) (k + 1) (k + 1) [0x30] [nestIndef (k + 1)] 16
        (minIdent_low 0x30 (by decide)) (.inl rfl) (by simpa using ih) (by simpa using not_eoc k)
      simpa [nestIndef] using this
  refine ⟨doc _ _ _, ?_⟩
  refine ⟨fun ⟨o, h⟩ => Decidable.byContradiction fun h' => ?_, fun h =>
    (C121_exact D 0 (k + 1) (k + 2) 50 _ rest (doc _ _ _) hk).2 (berDoc_mono (doc _ 50 k) (by omega) (by omega) (by omega))⟩
  obtain ⟨e', c, he, hF, _⟩ := parseBerRecursive_iff.1 h
  have h1 : parseBerAny (nestIndef (k + 1) ++ rest) = .ok (rest, ⟨_, c⟩) := anyFromBer_framed.2 ⟨e', he, hF⟩
  rw [(C14_nest_sharp k rest).2 (by omega)] at h1
  cases h1

/-- The hypotheses of `C121_exact` can be met, also by a document beyond the limits of the library: an ENUMERATED of five
octets. -/
example : BerDoc LooseEoc (fun _ _ num _ => num < 2 ^ 32) 1 1 1 [0x0a, 0x05, 0x01, 0x00, 0x00, 0x00, 0x00] :=
  .primitive 0 0 [0x0a] [0x05] [0x01, 0x00, 0x00, 0x00, 0x00] .universal 10 (minIdent_low 0x0a (by decide))
    (.short 5 (by decide)) (fun _ => ⟨by decide, by decide, by decide⟩) (by decide)

end Verif
