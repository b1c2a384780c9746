import Verif.Props.SetOrder
import Verif.Props.Reproduce
/-!
# Properties C102 and C103: exactly which DER documents are accepted, and which are reproduced
-/
namespace Verif
open Outcome Spec

/-! ## Lemmas -/

theorem leaf_supported {D : Deps} {h : Header} {c : Bytes} {x : Content} (hx : Leaf D h c x) (hc : h.cls = .universal)
    (hk : h.constructed = false) (hn : h.tag < 2 ^ 32) : Supported D .universal h.tag c := by
  refine ⟨hn, fun _ => ?_⟩
  cases x with
  | str k s =>
    obtain ⟨_, h2, _, rfl, h4, h5⟩ := hx
    refine ⟨?_, ?_, ?_, ?_⟩
    · intro h; rw [h2] at h; cases k <;> simp [strTag] at h
    · intro h; rw [h2] at h; cases k <;> simp [strTag] at h
    · intro h; rw [h2] at h; cases k <;> simp [strTag] at h
    · intro k' hk' h
      rw [h2] at h
      have : k = k' := by revert h hk'; cases k <;> cases k' <;> simp [strTag]
      subst this
      refine ⟨h5, ?_⟩
      simp only [List.mem_cons, List.not_mem_nil, or_false] at hk'
      rcases hk' with rfl | rfl | rfl | rfl | rfl <;> simpa [CharsOk, alphabet] using h4
  | unknown a =>
    obtain ⟨_, h1 | h1 | h1⟩ := hx
    · exact absurd hc h1
    · simp only [List.mem_cons, List.not_mem_nil, or_false] at h1
      refine ⟨by omega, by omega, by omega, fun k hk' h => ?_⟩
      rw [h] at h1
      cases k <;> simp [strTag] at h1
    · refine ⟨by omega, by omega, by omega, fun k hk' h => ?_⟩
      rw [h] at h1
      cases k <;> simp [strTag] at h1
  | enum n =>
    obtain ⟨_, h2, _, rfl, h4⟩ := hx
    refine ⟨fun _ => h4, by omega, by omega, fun k _ h => ?_⟩
    rw [h2] at h
    cases k <;> simp [strTag] at h
  | utcTime t =>
    obtain ⟨_, h2, h3⟩ := hx
    refine ⟨by omega, fun _ => ⟨t, hk ▸ h3⟩, by omega, fun k _ h => ?_⟩
    rw [h2] at h
    cases k <;> simp [strTag] at h
  | generalizedTime t =>
    obtain ⟨_, h2, h3⟩ := hx
    refine ⟨by omega, by omega, fun _ => ⟨t, hk ▸ h3⟩, fun k _ h => ?_⟩
    rw [h2] at h
    cases k <;> simp [strTag] at h
  | _ =>
    first
    | exact hx.elim
    | (have h2 := hx.2
       refine ⟨by omega, by omega, by omega, fun k _ h => ?_⟩
       rw [h2] at h
       cases k <;> simp [strTag] at h)
    | (have h2 := hx.2.1
       refine ⟨by omega, by omega, by omega, fun k _ h => ?_⟩
       rw [h2] at h
       cases k <;> simp [strTag] at h)

theorem derDoc_supported {D : Deps} {d : Nat} {e : Bytes} (H : DerDoc (fun _ num _ => num < 2 ^ 32) d e)
    (hl : e.length < 2 ^ 64) : ∀ (d' : Nat) (h h' : Header) (c : Bytes) (x : Content), Framed 50 e h c →
      h'.cls = h.cls → h'.constructed = h.constructed → h'.tag = h.tag → Denotes D d' h' c x →
      DerDoc (Supported D) d' e := by
  induction H with
  | primitive d id len c0 cls num h1 h2 h3 h4 =>
    intro d' h h' c x hF g1 g2 g3 hD
    have H := minHeader_of h1 h2 h4 (by simp only [List.length_append] at hl; omega)
    obtain ⟨_, _, rfl, rfl⟩ := framed_unique (r := []) (r' := []) (.definite _ c0 _ H.toBerHeader rfl) hF rfl
    cases hD with
    | leaf d' _ _ _ hx =>
      refine .primitive d' id len c0 cls num h1 h2 h3 ?_
      by_cases hu : cls = .universal
      · subst hu
        have := leaf_supported hx g1 g2 (by rw [g3]; exact h4)
        rw [g3] at this
        exact this
      · exact ⟨h4, fun h => absurd h hu⟩
    | sequence _ _ _ _ _ hk => rw [g2] at hk; simp at hk
    | set _ _ _ _ _ hk => rw [g2] at hk; simp at hk
  | constructed d id len c0 cls num h1 h2 h3 h4 =>
    intro d' h h' c x hF g1 g2 g3 hD
    have H := minHeader_of h1 h2 h4 (by simp only [List.length_append] at hl; omega)
    obtain ⟨_, _, rfl, rfl⟩ := framed_unique (r := []) (r' := []) (.definite _ c0 _ H.toBerHeader rfl) hF rfl
    cases hD with
    | leaf d' _ _ _ hx =>
      refine .constructed d' id len c0 cls num h1 h2 h3 ⟨h4, fun hu => ?_⟩
      have := h3.resolve_left (absurd hu)
      refine ⟨by omega, by omega, by omega, fun k _ h => ?_⟩
      rw [h] at this
      cases k <;> simp [strTag] at this
    | sequence _ _ _ hc ht =>
      simp only at g1 g3
      rw [g1] at hc; rw [g3] at ht
      rcases h3 with h3 | h3
      · exact absurd hc h3
      · omega
    | set _ _ _ hc ht =>
      simp only at g1 g3
      rw [g1] at hc; rw [g3] at ht
      rcases h3 with h3 | h3
      · exact absurd hc h3
      · omega
  | list d id len es num h1 hn h2 h3 ih =>
    intro d' h h' c x hF g1 g2 g3 hD
    have H := minHeader_of h1 h2 (by omega) (by simp only [List.length_append] at hl; omega)
    obtain ⟨_, _, rfl, rfl⟩ := framed_unique (r := []) (r' := []) (.definite _ es.flatten _ H.toBerHeader rfl) hF rfl
    simp only at g1 g2 g3
    cases d' with
    | zero => cases hD
    | succ d' =>
      obtain ⟨ps, a1, a2, _⟩ := (denotes_list_iff g1 (by omega) g2).1 hD
      have e1 := derDoc_list_unique h3 (fs := ps.map Prod.fst) (fun f hf => by
        obtain ⟨p, hp, rfl⟩ := List.mem_map.1 hf
        exact read_framed (a2 p hp)) a1
      refine .list d' id len es num h1 hn h2 fun e he => ?_
      rw [e1] at he
      obtain ⟨p, hp, rfl⟩ := List.mem_map.1 he
      obtain ⟨e', c', he', hF', hD'⟩ := parseBerRecursive_iff.1 (a2 p hp)
      rw [List.append_nil] at he'
      rw [← he'] at hF'
      have hmem : p.1 ∈ es := by rw [e1]; exact he
      refine ih _ hmem ?_ d' _ _ _ _ hF' rfl rfl rfl hD'
      have := length_le_flatten hmem
      simp only [List.length_append] at hl
      omega

/-! ## C102 -/

/-- C102: among the DER documents of less than 2^32 octets with tag numbers below 2^32, `parse_der` accepts exactly those
with at most 50 levels within the limits `Supported`. -/
theorem C102_exact (D : Deps) (hT : TimesKnown D) (d : Nat) (e rest : Bytes)
    (H : DerDoc (fun _ num _ => num < 2 ^ 32) d e) (hl : e.length < 2 ^ 32) :
    (∃ o, parseDer D (e ++ rest) = .ok (rest, o)) ↔ DerDoc (Supported D) 50 e := by
  refine ⟨?_, fun h => C102_accepted_partial D hT e rest h hl⟩
  rintro ⟨o, h⟩
  obtain ⟨hb, c, he, H', hl', _, hx⟩ := (C63_parse_der_exact D hT 49 _ rest o).1 h
  obtain rfl := List.append_cancel_right he
  have hF : Framed 50 (hb ++ c) o.header c := .definite hb c _ H'.toBerHeader hl'
  rcases hx with ⟨hu, _⟩ | ⟨hu, _, hx⟩
  · exact derDoc_supported H (by omega) 50 _ o.header _ (.unknown ⟨o.header, c⟩) hF rfl rfl rfl
      (.leaf _ _ _ _ ⟨rfl, .inl hu⟩)
  · exact derDoc_supported H (by omega) 50 _ (Header.new .universal o.header.constructed o.header.tag o.header.length) _ _ hF
      hu.symm rfl rfl hx

/-- C102: `parse_ber` accepts the same ones. -/
theorem C102_exact_ber (D : Deps) (d : Nat) (e rest : Bytes) (H : DerDoc (fun _ num _ => num < 2 ^ 32) d e)
    (hl : e.length < 2 ^ 64) : (∃ o, parseBer D (e ++ rest) = .ok (rest, o)) ↔ DerDoc (Supported D) 50 e := by
  refine ⟨?_, fun h => C102_accepted_ber_partial D e rest h hl⟩
  rintro ⟨o, h⟩
  obtain ⟨e', c, he, hF, hD⟩ := parseBerRecursive_iff.1 h
  obtain rfl := List.append_cancel_right he
  exact derDoc_supported H hl 50 _ _ _ _ hF rfl rfl rfl hD

/-- A case: fifty nested sequences are one of them, so they are accepted; fifty-one are not, so they are refused. -/
example (D : Deps) (hT : TimesKnown D) : (∃ o, parseDer D (Tests.nest 49 ++ [0xff]) = .ok ([0xff], o)) ∧
    ¬ DerDoc (Supported D) 50 (Tests.nest 50) := by
  refine ⟨(C102_exact D hT 50 _ _ (nest_derDoc _ 49 (by decide)) (by decide)).2 (nest_derDoc _ 49 (by decide)), fun h => ?_⟩
  obtain ⟨o, ho⟩ := (C102_exact D hT 51 _ [] (nest_derDoc _ 50 (by decide)) (by decide)).2 h
  rw [List.append_nil, (C102_depth_counterexample D).2] at ho
  cases ho

/-! ## C103 -/

theorem head_of_minOctets {c : Bytes} (h : MinOctets c (base256 c)) : c.head? ≠ some 0 := by
  intro hc
  match c, hc with
  | b :: s, hc =>
    have hb : b = 0 := by simpa using hc
    subst hb
    have h1 := base256_append [0] s
    have h2 := h.2 s (by rw [List.singleton_append] at h1; rw [h1]; simp [base256])
    simp only [List.length_cons] at h2
    omega

theorem canonical_leaf {D : Deps} {e c : Bytes} {h : Header} (hC : Canonical D e) (hl : e.length < 2 ^ 64)
    (hF : Framed 50 e h c) (hn : h.cls ≠ .universal ∨ (h.tag ≠ 16 ∧ h.tag ≠ 17)) :
    h.tag ≤ 30 ∧ (h.cls = .universal → PlainContents D h.constructed h.tag c) := by
  cases hC with
  | leaf b len v cls k num h1 h2 h3 =>
    obtain ⟨_, _, rfl, rfl⟩ := framed_unique (r := []) (r' := []) hF
      (minFramed h1 h2 (by simp only [List.length_cons, List.length_append] at hl; omega)) rfl
    exact ⟨((identOctet_iff (h := ⟨cls, k, num, .definite 0, none⟩)).1 h1).1, h3⟩
  | list b len es num h1 h2 h3 _ =>
    obtain ⟨_, _, rfl, rfl⟩ := framed_unique (r := []) (r' := []) hF
      (minFramed h1 h3 (by simp only [List.length_cons, List.length_append] at hl; omega)) rfl
    rcases hn with hn | hn
    · exact absurd rfl hn
    · simp only at hn; omega

theorem derDoc_writable {D : Deps} {d : Nat} {e : Bytes} (H : DerDoc (Supported D) d e) (hl : e.length < 2 ^ 64)
    (hC : Canonical D e) : DerDoc (fun cls num c => Supported D cls num c ∧ Writable D cls num c) d e := by
  induction H with
  | primitive d id len c cls num h1 h2 h3 h4 =>
    have H := minHeader_of h1 h2 h4.1 (by simp only [List.length_append] at hl; omega)
    obtain ⟨w1, w2⟩ := canonical_leaf hC hl (.definite _ c _ H.toBerHeader rfl) (by
      by_cases hu : cls = .universal
      · refine .inr ⟨?_, ?_⟩ <;> (rintro rfl; exact h3 hu)
      · exact .inl hu)
    refine .primitive d id len c cls num h1 h2 h3 ⟨h4, w1, fun hu => ?_⟩
    exact ⟨fun hn => head_of_minOctets ((w2 hu).enum hn), (w2 hu).utc, (w2 hu).generalized⟩
  | constructed d id len c cls num h1 h2 h3 h4 =>
    have H := minHeader_of h1 h2 h4.1 (by simp only [List.length_append] at hl; omega)
    obtain ⟨w1, w2⟩ := canonical_leaf hC hl (.definite _ c _ H.toBerHeader rfl) (by
      rcases h3 with h3 | h3
      · exact .inl h3
      · exact .inr (by simp only; omega))
    refine .constructed d id len c cls num h1 h2 h3 ⟨h4, w1, fun hu => ?_⟩
    have := h3.resolve_left (fun h => h hu)
    refine ⟨?_, ?_, ?_⟩ <;> (intro hn; omega)
  | list d id len es num h1 hn h2 h3 ih =>
    have H := minHeader_of h1 h2 (by omega) (by simp only [List.length_append] at hl; omega)
    refine .list d id len es num h1 hn h2 fun e he => ih e he ?_ ?_
    · have := length_le_flatten he
      simp only [List.length_append] at hl
      omega
    · have hF : Framed 50 (id ++ len ++ es.flatten) _ es.flatten := .definite _ _ _ H.toBerHeader rfl
      generalize hE : id ++ len ++ es.flatten = E at hF hC
      rw [hE] at hl
      cases hC with
      | leaf b len' v cls k num' g1 g2 g3 =>
        obtain ⟨_, _, g4, rfl⟩ := framed_unique (r := []) (r' := []) hF
          (minFramed g1 g2 (by simp only [List.length_cons, List.length_append] at hl; omega)) rfl
        simp only [Header.mk.injEq] at g4
        have := (g3 g4.1.symm).leaf
        omega
      | list b len' fs num' g1 g2 g3 g5 =>
        obtain ⟨_, _, g4, g6⟩ := framed_unique (r := []) (r' := []) hF
          (minFramed g1 g3 (by simp only [List.length_cons, List.length_append] at hl; omega)) rfl
        have : es = fs := derDoc_list_unique h3 (fun f hf => canonical_framed (g5 f hf) (by
          have := length_le_flatten hf
          simp only [List.length_cons, List.length_append] at hl
          omega)) g6
        rw [this] at he
        exact g5 e he

/-- C103: among the DER documents that are accepted, exactly those within the limits `Writable` are reproduced. -/
theorem C103_exact (D : Deps) (hT : TimesKnown D) (e rest : Bytes) (o : BerObject) (H : DerDoc (Supported D) 50 e)
    (hl : e.length < 2 ^ 32) (h : parseDer D (e ++ rest) = .ok (rest, o)) :
    toVec D o = .ok e ↔ DerDoc (fun cls num c => Supported D cls num c ∧ Writable D cls num c) 50 e := by
  rw [C83_der_fixed_iff_canonical D hT 49 e rest o h (by omega)]
  exact ⟨derDoc_writable H (by omega), derDoc_canonical⟩

set_option maxRecDepth 10000 in
example := C103_exact Tests.D0 (fun _ _ _ => by simp [Tests.D0]) (Tests.nest 49) [0x07] _ (nest_derDoc _ 49 (by decide)) (by decide) rfl

end Verif
