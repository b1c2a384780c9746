import Verif.Props.Reform
/-!
# Property C43, exactly when it holds
-/
namespace Verif
open Outcome Spec

/-! ## Lemmas -/

theorem element_framed {n : Nat} {e : Bytes} (H : Element LooseEoc LooseEoc n e) (hn : n ≤ 50) :
    ∃ h c, Framed 50 e h c := by
  cases H with
  | definite n l hb c h h1 h2 h3 h4 => exact ⟨h, c, .definite hb c h h1 (by rw [h2, h3])⟩
  | indefinite n hb es t h h1 h2 h3 h4 =>
    exact ⟨h, _, .indefinite 48 hb es t h rfl h1 h2 (fun e he => Element.mono (h3 e he) (by omega)) h4⟩

theorem looseEoc_framed {t : Bytes} (H : LooseEoc t) : ∃ h, Framed 50 t h [] := by
  obtain ⟨h, h1, _, h3⟩ := H
  have := Framed.definite (n := 50) t [] h h1 (by simpa using h3)
  exact ⟨h, by simpa using this⟩

theorem eoc_frames_unique : ∀ (es fs : List Bytes) (t : Bytes), (∀ e ∈ es, ∃ h c, Framed 50 e h c) →
    (∀ f ∈ fs, Element LooseEoc LooseEoc 49 f) → LooseEoc t → es.flatten ++ [0, 0] = fs.flatten ++ t → es = fs
  | [], [], _, _, _, _, _ => rfl
  | [], f :: fs, t, _, h2, h3, h => by
    obtain ⟨_, _, hf⟩ := element_framed (h2 f List.mem_cons_self) (by decide)
    obtain ⟨_, h0⟩ := looseEoc_framed (looseEoc_of_isEoc [0, 0] rfl)
    obtain ⟨_, ht⟩ := looseEoc_framed h3
    have := framed_unique (r := []) (r' := fs.flatten ++ t) h0 hf (by simpa using h)
    have h4 := framed_nonempty ht
    have h5 := congrArg List.length this.2.1
    simp only [List.length_append, List.length_nil] at h5
    omega
  | e :: es, [], t, h1, _, h3, h => by
    obtain ⟨_, _, he⟩ := h1 e List.mem_cons_self
    obtain ⟨_, ht⟩ := looseEoc_framed h3
    have := framed_unique (r := es.flatten ++ [0, 0]) (r' := []) he ht (by simpa using h)
    simp at this
  | e :: es, f :: fs, t, h1, h2, h3, h => by
    obtain ⟨_, _, he⟩ := h1 e List.mem_cons_self
    obtain ⟨_, _, hf⟩ := element_framed (h2 f List.mem_cons_self) (by decide)
    obtain ⟨rfl, h4, -, -⟩ := framed_unique (r := es.flatten ++ [0, 0]) (r' := fs.flatten ++ t) he hf (by simpa using h)
    rw [eoc_frames_unique es fs t (fun x hx => h1 x (List.mem_cons_of_mem _ hx))
      (fun x hx => h2 x (List.mem_cons_of_mem _ hx)) h3 h4]

/-- Elements in indefinite form with end-of-contents octets are framed exactly if none of them ends the contents early or
is nested too deeply. -/
theorem indefinite_framed_iff {hb rest : Bytes} {h : Header} {es : List Bytes} (H : BerHeader hb h)
    (hl : h.length = .indefinite) (hes : ∀ e ∈ es, ∃ h c, Framed 50 e h c) :
    (∃ c, anyFromBer (hb ++ es.flatten ++ [0, 0] ++ rest) = .ok (rest, ⟨h, c⟩)) ↔
      ∀ e ∈ es, Element LooseEoc LooseEoc 49 e := by
  constructor
  · rintro ⟨c, hc⟩
    obtain ⟨e, h1, h2⟩ := anyFromBer_framed.1 hc
    obtain rfl := List.append_cancel_right h1
    generalize he : hb ++ es.flatten ++ [0, 0] = e at h2
    cases h2 with
    | definite hb' c h H' hl' => rw [hl] at hl'; cases hl'
    | indefinite m hb' fs t h hm H' hl' hfs ht =>
      obtain rfl : m = 48 := by omega
      obtain ⟨rfl, -⟩ := berHeader_unique (x := es.flatten ++ [0, 0]) (x' := fs.flatten ++ t) H H' (by simpa using he)
      rw [eoc_frames_unique es fs t hes hfs ht (by simpa using he)]
      exact hfs
  · intro hE
    refine ⟨(es.flatten ++ [0, 0]).take ((es.flatten ++ [0, 0]).length - 2), anyFromBer_framed.2 ⟨_, rfl, ?_⟩⟩
    rw [List.append_assoc hb]
    exact .indefinite 48 hb es [0, 0] h rfl H hl hE (looseEoc_of_isEoc _ rfl)

theorem leaf_list_elim {D : Deps} {h : Header} {c : Bytes} {x : Content} (hL : Leaf D h c x) (h1 : h.cls = .universal)
    (h2 : h.tag = 16 ∨ h.tag = 17) : False := by
  have ht : ∀ n, h.tag = n → n ≠ 16 → n ≠ 17 → False := fun n hn a b => by
    rcases h2 with h2 | h2 <;> rw [h2] at hn <;> simp_all
  cases x <;> simp only [Leaf] at hL <;> try exact hL
  case unknown a =>
    rcases hL.2 with k | k | k
    · exact k h1
    · rcases h2 with h2 | h2 <;> rw [h2] at k <;> simp at k
    · rcases h2 with h2 | h2 <;> rw [h2] at k <;> simp at k
  case str k s => exact ht _ hL.2.1 (by cases k <;> decide) (by cases k <;> decide)
  all_goals first | exact ht _ hL.2 (by decide) (by decide) | exact ht _ hL.2.1 (by decide) (by decide)

theorem denotes_list_length {D : Deps} {d : Nat} {h : Header} {c : Bytes} {x : Content} {l : Length}
    (H : Denotes D d h c x) (h1 : h.cls = .universal) (h2 : h.tag = 16 ∨ h.tag = 17) :
    Denotes D d { h with length := l } c x := by
  cases H with
  | leaf d _ _ _ hL => exact (leaf_list_elim hL h1 h2).elim
  | sequence d _ items k1 k2 k3 k4 k5 => exact .sequence d _ items k1 k2 k3 k4 k5
  | set d _ items k1 k2 k3 k4 k5 => exact .set d _ items k1 k2 k3 k4 k5

/-! ## C43 -/

/-- C43, exactly when it holds: a SEQUENCE or SET accepted in definite form is accepted in indefinite form, with the same
contents and remainder, exactly if no element of it looks like end-of-contents to the parser or contains too many levels
of indefinite lengths. -/
theorem C43_iff_partial (D : Deps) (hb hb' : Bytes) (h h' : Header) (es : List Bytes) (rest : Bytes) (d : Nat)
    (o : BerObject) (H : BerHeader hb h) (H' : BerHeader hb' h') (hl : h.length = .definite es.flatten.length)
    (hh : h' = { h with length := .indefinite }) (hcls : h.cls = .universal) (ht : h.tag = 16 ∨ h.tag = 17)
    (hes : ∀ e ∈ es, ∃ h c, Framed 50 e h c) (ho : parseBerRecursive D d (hb ++ es.flatten ++ rest) = .ok (rest, o)) :
    (∃ o', parseBerRecursive D d (hb' ++ es.flatten ++ [0, 0] ++ rest) = .ok (rest, o') ∧ o'.content = o.content) ↔
      ∀ e ∈ es, Element LooseEoc LooseEoc 49 e := by
  rw [← indefinite_framed_iff (rest := rest) H' (by rw [hh]) hes]
  constructor
  · rintro ⟨o', h1, -⟩
    obtain ⟨e, c, h2, h3, -⟩ := parseBerRecursive_iff.1 h1
    have h4 := (anyFromBer_framed (a := ⟨o'.header, c⟩)).2 ⟨e, h2, h3⟩
    refine ⟨c, ?_⟩
    rw [h4]
    obtain ⟨e', h5, h6⟩ := anyFromBer_framed.1 h4
    cases h6 with
    | definite hx c h7 H7 hl7 =>
      obtain ⟨-, h8⟩ := berHeader_unique (x := es.flatten ++ [0, 0] ++ rest) (x' := c ++ rest) H' H7 (by simpa using h5)
      rw [h8]
    | indefinite m hx fs t h7 hm H7 hl7 hfs ht7 =>
      obtain ⟨-, h8⟩ := berHeader_unique (x := es.flatten ++ [0, 0] ++ rest) (x' := fs.flatten ++ t ++ rest) H' H7
        (by simpa using h5)
      rw [h8]
  · rintro ⟨c, hc⟩
    obtain ⟨e1, c1, h1, h2, h3⟩ := parseBerRecursive_iff.1 ho
    obtain rfl := List.append_cancel_right h1
    obtain ⟨-, -, k3, k4⟩ := framed_unique (r := []) (r' := []) (Framed.definite hb _ h H hl) h2 rfl
    have hE := (indefinite_framed_iff H' (by rw [hh]) hes).1 ⟨c, hc⟩
    refine ⟨.mk h' o.content, parseBerRecursive_iff.2 ⟨hb' ++ es.flatten ++ [0, 0], es.flatten, rfl, ?_, ?_⟩, rfl⟩
    · rw [List.append_assoc]
      exact frameOf_framed (.indefinite hb' H' (by subst hh; rfl) hE)
    · subst hh k3 k4
      exact denotes_list_length h3 hcls ht

/-- An INTEGER does not look like end-of-contents; `[0]` without contents does. -/
example : Element LooseEoc LooseEoc 49 [0x02, 0x01, 0x07] ∧ (∃ h c, Framed 50 [0x80, 0x00] h c) ∧
    ¬ Element LooseEoc LooseEoc 49 [0x80, 0x00] := by
  have i1 := berHeader_short 0x02 0x01 (by decide) (by decide)
  have i2 := berHeader_short 0x80 0x00 (by decide) (by decide)
  have hE : LooseEoc [0x80, 0x00] := ⟨_, i2, rfl, rfl⟩
  refine ⟨.definite 48 1 [0x02, 0x01] [0x07] _ i1 rfl rfl (fun h => by
    have := (looseEoc_iff i1 rfl (c := [0x07]) rfl).1 h; simp at this), ⟨_, _, (looseEoc_framed hE).choose_spec⟩, ?_⟩
  intro h
  generalize he : ([0x80, 0x00] : Bytes) = e at h
  cases h with
  | definite n l hb c h h1 h2 h3 h4 => exact h4 (he ▸ hE)
  | indefinite n hb es t h h1 h2 h3 h4 =>
    obtain ⟨-, rfl⟩ := berHeader_unique (x := []) (x' := es.flatten ++ t) i2 h1 (by simpa using he)
    cases h2

end Verif
