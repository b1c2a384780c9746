import Verif.Props.CostExact
import Verif.Props.Forms
/-!
# Number of header reads, exactly, with indefinite lengths: C131
-/
namespace Verif
open Outcome Spec

namespace Spec

mutual
/-- Number of times a header is looked at if every header is looked at once for its own object and once more
for each object of the unbroken run of indefinite-length objects around it (`run` of them around `o`); the
end-of-contents octets of an indefinite-length object are inside that object. -/
def looks (run : Nat) : BerObject → Nat
  | .mk h c => if h.length = .indefinite then (1 + run) + (1 + run) + looksC (run + 1) c else (1 + run) + looksC 0 c
/-- The same for contents. -/
def looksC (run : Nat) : Content → Nat
  | .sequence l => looksL run l
  | .set l => looksL run l
  | _ => 0
/-- The same for a list. -/
def looksL (run : Nat) : List BerObject → Nat
  | [] => 0
  | o :: os => looks run o + looksL run os
end

/-- Only SEQUENCE and SET objects of the tree have an indefinite length. -/
def ListsOnly (o : BerObject) : Prop :=
  ∀ h c, Node (.mk h c) o → h.length = .indefinite → ∃ l, c = .sequence l ∨ c = .set l

/-- `Skims e n`: passing over the contents of the element `e` takes `n` headers. -/
inductive Skims : Bytes → Nat → Prop
  | definite (hb c : Bytes) (h : Header) : BerHeader hb h → h.length = .definite c.length → Skims (hb ++ c) 0
  | indefinite (hb : Bytes) (ps : List (Bytes × Nat)) (t : Bytes) (h : Header) : BerHeader hb h →
      h.length = .indefinite → (∀ p ∈ ps, Element LooseEoc LooseEoc 49 p.1) → (∀ p ∈ ps, Skims p.1 p.2) →
      LooseEoc t →
      Skims (hb ++ ((ps.map Prod.fst).flatten ++ t)) ((ps.map fun p => 1 + p.2).sum + 1)

end Spec

/-! ## Lemmas -/

mutual
/-- Headers passed over by the framing of one object. -/
def skim : BerObject → Nat
  | .mk h c => if h.length = .indefinite then skimC c + 1 else 0
/-- The same for contents. -/
def skimC : Content → Nat
  | .sequence l => skimL l
  | .set l => skimL l
  | _ => 0
/-- The same for a list. -/
def skimL : List BerObject → Nat
  | [] => 0
  | o :: os => 1 + skim o + skimL os
end

mutual
theorem looks_run (r : Nat) (o : BerObject) : looks r o = looks 0 o + r * (1 + skim o) := by
  match o with
  | .mk h c =>
    simp only [looks, skim]
    split
    · rw [looksC_run (r + 1) c, looksC_run (0 + 1) c]
      have h1 := Nat.add_mul r 1 (skimC c)
      have h2 : r * (1 + (skimC c + 1)) = r * skimC c + 2 * r := by
        rw [Nat.mul_add, Nat.mul_add]; omega
      simp only [Nat.zero_add, Nat.one_mul] at h1 ⊢
      omega
    · omega
theorem looksC_run (r : Nat) (c : Content) : looksC r c = looksC 0 c + r * skimC c := by
  match c with
  | .sequence l => simp only [looksC, skimC]; exact looksL_run r l
  | .set l => simp only [looksC, skimC]; exact looksL_run r l
  | .boolean _ | .integer _ | .bitString _ _ | .octetString _ | .null | .enum _ | .oid _
  | .relativeOid _ | .str _ _ | .utcTime _ | .generalizedTime _ | .bmpString _
  | .universalString _ | .optionalNone | .optionalSome _ | .tagged _ _ _ | .endOfContent
  | .unknown _ => simp only [looksC, skimC, Nat.mul_zero]
theorem looksL_run (r : Nat) (l : List BerObject) : looksL r l = looksL 0 l + r * skimL l := by
  match l with
  | [] => rfl
  | o :: os =>
    simp only [looksL, skimL]
    rw [looks_run r o, looksL_run r os, Nat.mul_add r (1 + skim o)]
    omega
end

theorem looks_mk (h : Header) (c : Content) :
    looks 0 (.mk h c) = 1 + skim (.mk h c) + looksC 0 c := by
  simp only [looks, skim]
  split
  · rw [looksC_run]; omega
  · omega

/-- What passing over contents costs. -/
def Counted (h : Header) (c : Bytes) (n : Nat) : Prop :=
  (h.length ≠ .indefinite ∧ n = 0) ∨
  (h.length = .indefinite ∧ ∃ (ps : List (Bytes × Nat)) (t : Bytes),
    (∀ p ∈ ps, Element LooseEoc LooseEoc 49 p.1) ∧ (∀ p ∈ ps, Skims p.1 p.2) ∧ LooseEoc t ∧
    c = ((ps.map Prod.fst).flatten ++ t).take (((ps.map Prod.fst).flatten ++ t).length - 2) ∧
    n = (ps.map fun p => 1 + p.2).sum + 1)

theorem skipLoopT_skims {d : Nat} (hd : d ≤ 49)
    (ih : ∀ {i i1 rem : Bytes} {hd : Header} {b : Bool}, headerFromBer i = .ok (i1, hd) →
      (skipContentT d hd i1).1 = .ok (rem, b) → ∃ e, i = e ++ rem ∧ Skims e (skipContentT d hd i1).2) :
    ∀ fuel (i rem : Bytes) (b : Bool), (skipLoopT (skipContentT d) fuel i).1 = .ok (rem, b) →
      ∃ (ps : List (Bytes × Nat)) (t : Bytes), i = (ps.map Prod.fst).flatten ++ t ++ rem ∧
        (∀ p ∈ ps, Element LooseEoc LooseEoc 49 p.1) ∧ (∀ p ∈ ps, Skims p.1 p.2) ∧ LooseEoc t ∧
        (skipLoopT (skipContentT d) fuel i).2 = (ps.map fun p => 1 + p.2).sum + 1 := by
  intro fuel
  induction fuel with
  | zero => intro i rem b h; cases h
  | succ fuel ihf =>
    intro i rem b h
    rw [skipLoopT] at h ⊢
    obtain ⟨⟨i2, hd2⟩, g1, g2, g3⟩ := Tick.bind_ok h
    obtain ⟨⟨i3, eoc⟩, g4, g5, g6⟩ := Tick.bind_ok g2
    have g1 : headerFromBer i = .ok (i2, hd2) := g1
    obtain ⟨e, he, hs⟩ := ih g1 g4
    have g4' := g4
    rw [skipContentT_fst] at g4'
    obtain ⟨e', he', hE⟩ := skip_sound g1 g4'
    obtain rfl : e' = e := List.append_cancel_right (he'.symm.trans he)
    rw [g3, g6]
    have c1 : (Tick.read (headerFromBer i)).2 = 1 := rfl
    rw [c1]
    dsimp only at g4 g5 hs hE ⊢
    cases eoc with
    | true =>
      rw [if_pos rfl] at g5 hE ⊢
      have g5 : (Outcome.ok (i3, false) : Outcome (NomErr BerError) _) = .ok (rem, b) := g5
      cases g5
      refine ⟨[], e', by simpa using he, by simp, by simp, hE, ?_⟩
      have c2 : (skipContentT d hd2 i2).2 = 0 := by
        cases d with
        | zero => cases g4
        | succ d =>
          rw [skipContentT] at g4 ⊢
          split at g4
          · rfl
          · rename_i hl
            obtain ⟨hh, H, h1, h2⟩ := hE
            obtain ⟨hb, k1, k2⟩ := headerFromBer_iff.1 g1
            have := berHeader_unique H k2 (x := rem) (x' := i2) (by rw [← he, k1])
            rw [← this.2, h2] at hl
            cases hl
      rw [c2]
      rfl
    | false =>
      rw [if_neg (by decide)] at g5 hE ⊢
      obtain ⟨ps, t, k1, k2, k3, k4, k5⟩ := ihf i3 rem b g5
      refine ⟨(e', (skipContentT d hd2 i2).2) :: ps, t, by rw [he, k1]; simp, ?_, ?_, k4, ?_⟩
      · intro p hp
        rcases List.mem_cons.1 hp with rfl | hp
        · exact Element.mono hE hd
        · exact k2 p hp
      · intro p hp
        rcases List.mem_cons.1 hp with rfl | hp
        · exact hs
        · exact k3 p hp
      · rw [k5]; simp only [List.map_cons, List.sum_cons]; omega

theorem skipContentT_skims {d : Nat} (hd50 : d ≤ 50) {i i1 rem : Bytes} {hd : Header} {b : Bool}
    (h1 : headerFromBer i = .ok (i1, hd)) (h2 : (skipContentT d hd i1).1 = .ok (rem, b)) :
    ∃ e, i = e ++ rem ∧ Skims e (skipContentT d hd i1).2 := by
  induction d generalizing i i1 hd rem b with
  | zero => cases h2
  | succ d ih =>
    obtain ⟨hb, rfl, H⟩ := headerFromBer_iff.1 h1
    cases hl : hd.length with
    | definite l =>
      have e0 : (skipContentT (d + 1) hd i1).2 = 0 := by simp only [skipContentT, hl]; rfl
      rw [e0]
      rw [skipContentT_fst] at h2
      simp only [skipContent, hl] at h2
      split at h2
      · rename_i hz
        simp at h2
        obtain ⟨rfl, rfl⟩ := h2
        exact ⟨hb ++ [], by simp, .definite hb [] hd H (by rw [hl, hz.1]; rfl)⟩
      · obtain ⟨⟨r, c⟩, h3, h4⟩ := bind_eq_ok.1 h2
        obtain ⟨rfl, hlen⟩ := takeStreaming_ok h3
        simp at h4
        obtain ⟨rfl, rfl⟩ := h4
        exact ⟨hb ++ c, by simp, .definite hb c hd H (by rw [hl, hlen])⟩
    | indefinite =>
      have hc := H.indef_constructed hl
      simp only [skipContentT, hl, hc, if_true] at h2 ⊢
      obtain ⟨ps, t, rfl, k1, k2, k3, k4⟩ := skipLoopT_skims (by omega)
        (fun a b => ih (by omega) a b) _ _ _ _ h2
      exact ⟨hb ++ ((ps.map Prod.fst).flatten ++ t), by simp, by
        rw [k4]; exact .indefinite hb ps t hd H hl k1 k2 k3⟩

/-- `ber_get_object_content` reads one header for each element that it passes over, and one for the
end-of-contents octets. -/
theorem getObjectContentT_counted {d : Nat} (hd : d ≤ 50) {h : Header} {i rem c : Bytes}
    (hr : (getObjectContentT d h i).1 = .ok (rem, c)) : Counted h c (getObjectContentT d h i).2 := by
  by_cases hl : h.length = .indefinite
  · refine .inr ⟨hl, ?_⟩
    unfold getObjectContentT at hr ⊢
    obtain ⟨⟨rem', b⟩, h1, h2, h3⟩ := Tick.bind_ok hr
    rw [h3]
    have e0 : ∀ y : Outcome (NomErr BerError) (Bytes × Bytes), (Tick.free y).2 = 0 := fun _ => rfl
    rw [e0, Nat.add_zero]
    cases d with
    | zero => cases h1
    | succ d =>
      rw [skipContentT] at h1 ⊢
      simp only [hl] at h1 h2 ⊢
      split at h1
      · rename_i hc
        rw [if_pos hc]
        obtain ⟨ps, t, rfl, k1, k2, k3, k4⟩ := skipLoopT_skims (by omega)
          (fun a b => skipContentT_skims (by omega) a b) _ _ _ _ h1
        refine ⟨ps, t, k1, k2, k3, ?_, k4⟩
        have h2 : (if (List.take (((ps.map Prod.fst).flatten ++ t ++ rem').length - rem'.length)
            ((ps.map Prod.fst).flatten ++ t ++ rem')).length < 2 then Outcome.panic else _) =
            Outcome.ok (rem, c) := h2
        have e1 : List.take (((ps.map Prod.fst).flatten ++ t ++ rem').length - rem'.length)
            ((ps.map Prod.fst).flatten ++ t ++ rem') = (ps.map Prod.fst).flatten ++ t := by
          rw [List.length_append, Nat.add_sub_cancel, List.take_left]
        simp only [e1] at h2
        split at h2
        · cases h2
        · cases h2
          rfl
      · cases h1
  · exact .inl ⟨hl, getObjectContentT_definite hl i⟩

theorem counted_any {i : Bytes} {r : Bytes × Any} (hr : (anyFromBerT i).1 = .ok r) :
    ∃ n, (anyFromBerT i).2 = 1 + n ∧ Counted r.2.header r.2.data n := by
  unfold anyFromBerT at hr ⊢
  obtain ⟨a, h1, h2, h3⟩ := Tick.bind_ok hr
  obtain ⟨s, h4, h5, h6⟩ := Tick.bind_ok h2
  have h5 : (Outcome.ok (s.1, { header := a.2, data := s.2 }) : Outcome (NomErr BerError) _) = .ok r := h5
  cases h5
  exact ⟨_, by rw [h3, h6]; rfl, getObjectContentT_counted (by decide) h4⟩

/-- Two splittings in elements, one followed by end-of-contents octets and one by two octets, are the same. -/
theorem two_left_unique : ∀ (es fs : List Bytes) (t z : Bytes), (∀ e ∈ es, ∃ h c, Framed 50 e h c) →
    (∀ f ∈ fs, Element LooseEoc LooseEoc 49 f) → LooseEoc t → z.length = 2 → es.flatten ++ z = fs.flatten ++ t →
    es = fs
  | [], [], _, _, _, _, _, _, _ => rfl
  | [], f :: fs, t, z, _, h2, h3, hz, h => by
    obtain ⟨_, _, hf⟩ := element_framed (h2 f List.mem_cons_self) (by decide)
    obtain ⟨_, ht⟩ := looseEoc_framed h3
    have h4 := framed_nonempty ht
    have h5 := framed_nonempty hf
    have h6 := congrArg List.length h
    simp only [List.flatten_cons, List.flatten_nil, List.nil_append, List.length_append] at h6
    omega
  | e :: es, [], t, z, h1, _, h3, hz, h => by
    obtain ⟨_, _, he⟩ := h1 e List.mem_cons_self
    obtain ⟨_, ht⟩ := looseEoc_framed h3
    have := framed_unique (r := es.flatten ++ z) (r' := []) he ht (by simpa using h)
    have h6 := congrArg List.length this.2.1
    simp only [List.length_append, List.length_nil] at h6
    omega
  | e :: es, f :: fs, t, z, h1, h2, h3, hz, h => by
    obtain ⟨_, _, he⟩ := h1 e List.mem_cons_self
    obtain ⟨_, _, hf⟩ := element_framed (h2 f List.mem_cons_self) (by decide)
    obtain ⟨rfl, h4, -, -⟩ := framed_unique (r := es.flatten ++ z) (r' := fs.flatten ++ t) he hf (by simpa using h)
    rw [two_left_unique es fs t z (fun x hx => h1 x (List.mem_cons_of_mem _ hx))
      (fun x hx => h2 x (List.mem_cons_of_mem _ hx)) h3 hz h4]

theorem counted_of_skims {e c : Bytes} {h : Header} {n : Nat} (hF : Framed 50 e h c) (hS : Skims e n) :
    Counted h c n := by
  cases hS with
  | definite hb c' h' H hl =>
    refine .inl ⟨?_, rfl⟩
    generalize he : hb ++ c' = e at hF
    cases hF with
    | definite hb2 c2 h2 H2 hl2 => rw [hl2]; simp
    | indefinite m hb2 es t h2 hm H2 hl2 hes ht =>
      have := berHeader_unique H H2 he
      rw [← this.2, hl] at hl2
      cases hl2
  | indefinite hb ps t h' H hl k1 k2 k3 =>
    generalize he : hb ++ ((ps.map Prod.fst).flatten ++ t) = e at hF
    cases hF with
    | definite hb2 c2 h2 H2 hl2 =>
      have := berHeader_unique H H2 he
      rw [← this.2, hl] at hl2
      cases hl2
    | indefinite m hb2 es t2 h2 hm H2 hl2 hes ht =>
      obtain ⟨rfl, rfl⟩ := berHeader_unique H H2 he
      have he := List.append_cancel_left he
      exact .inr ⟨hl, ps, t, k1, k2, k3, by rw [he], rfl⟩

theorem skimL_items : ∀ (ps : List (Bytes × Nat)) (items : List Item),
    items.map Item.bytes = ps.map Prod.fst →
    (∀ it ∈ items, ∀ p ∈ ps, it.bytes = p.1 → p.2 = skim (.mk it.header it.value)) →
    (ps.map fun p => 1 + p.2).sum = skimL (items.map fun it => .mk it.header it.value)
  | [], [], _, _ => rfl
  | [], _ :: _, h, _ => by cases h
  | _ :: _, [], h, _ => by cases h
  | p :: ps, it :: items, h, H => by
    simp only [List.map_cons, List.cons.injEq] at h
    have h1 := H it List.mem_cons_self p List.mem_cons_self h.1
    have h2 := skimL_items ps items h.2 fun it' hi p' hp e =>
      H it' (List.mem_cons_of_mem _ hi) p' (List.mem_cons_of_mem _ hp) e
    simp only [List.map_cons, List.sum_cons, skimL]
    rw [h1, h2]

theorem counted_tree {D : Deps} {d : Nat} {h : Header} {c : Bytes} {x : Content} (hD : Denotes D d h c x) :
    ListsOnly (.mk h x) → ∀ n, Counted h c n → n = skim (.mk h x) := by
  have lists : ∀ (h : Header) (items : List Item) (x : Content) (n : Nat),
      skimC x = skimL (items.map fun it => .mk it.header it.value) →
      (∀ it ∈ items, Framed 50 it.bytes it.header it.body) →
      (∀ it ∈ items, ∀ n, Counted it.header it.body n → n = skim (.mk it.header it.value)) →
      Counted h (items.flatMap Item.bytes) n → n = skim (.mk h x) := by
    intro h items x n hx hF ih hC
    simp only [skim]
    rcases hC with ⟨hl, rfl⟩ | ⟨hl, ps, t, k1, k2, k3, k4, rfl⟩
    · rw [if_neg hl]
    · rw [if_pos hl, hx, List.flatMap_def] at *
      have h2 : 2 ≤ ((ps.map Prod.fst).flatten ++ t).length := by
        obtain ⟨_, ht⟩ := looseEoc_framed k3
        have := framed_nonempty ht
        rw [List.length_append]; omega
      have heq : items.map Item.bytes = ps.map Prod.fst := by
        refine two_left_unique _ _ t (((ps.map Prod.fst).flatten ++ t).drop
          (((ps.map Prod.fst).flatten ++ t).length - 2)) ?_ ?_ k3 ?_ ?_
        · intro e he
          obtain ⟨it, hi, rfl⟩ := List.mem_map.1 he
          exact ⟨_, _, hF it hi⟩
        · intro f hf
          obtain ⟨p, hp, rfl⟩ := List.mem_map.1 hf
          exact k1 p hp
        · rw [List.length_drop]; omega
        · rw [k4, List.take_append_drop]
      rw [skimL_items ps items heq]
      intro it hi p hp e
      exact ih it hi p.2 (counted_of_skims (hF it hi) (e ▸ k2 p hp))
  induction hD with
  | leaf d h c x hL =>
    intro hP n hC
    rcases hC with ⟨hl, rfl⟩ | ⟨hl, -⟩
    · simp only [skim, if_neg hl]
    · obtain ⟨l, rfl | rfl⟩ := hP h x .self hl <;> exact absurd hL id
  | sequence d h items k1 k2 k3 k4 k5 ih =>
    intro hP n hC
    refine lists h items _ n rfl k4 (fun it hi => ih it hi fun h' c' hn => ?_) hC
    exact hP h' c' (.seq _ _ _ (List.mem_map.2 ⟨it, hi, rfl⟩) hn)
  | set d h items k1 k2 k3 k4 k5 ih =>
    intro hP n hC
    refine lists h items _ n rfl k4 (fun it hi => ih it hi fun h' c' hn => ?_) hC
    exact hP h' c' (.set _ _ _ (List.mem_map.2 ⟨it, hi, rfl⟩) hn)

theorem counted_collect {D : Deps} {d : Nat}
    (ih : ∀ a o, (objectFromAnyT D d a).1 = .ok o → (∀ L, a.header.length = .definite L → a.data.length = L) →
      ListsOnly o → (objectFromAnyT D d a).2 = looksC 0 o.content) :
    ∀ fuel data os, (collectItemsT (objectFromAnyT D d) fuel data).1 = .ok os → (∀ o ∈ os, ListsOnly o) →
      (collectItemsT (objectFromAnyT D d) fuel data).2 = looksL 0 os := by
  intro fuel
  induction fuel with
  | zero => intro data os h; cases h
  | succ fuel ihf =>
    intro data
    cases data with
    | nil => intro os h _; cases h; rfl
    | cons b data =>
      rw [collectItemsT]
      generalize b :: data = i
      intro l hl hP
      obtain ⟨r, h1, h2, h3⟩ := Tick.bind_ok hl
      obtain ⟨o, h4, h5, h6⟩ := Tick.bind_ok h2
      obtain ⟨os, h7, h8, h9⟩ := Tick.bind_ok h5
      have h8 : (Outcome.ok (o :: os) : Outcome BerError _) = .ok l := h8
      cases h8
      have h1 := Tick.mapErr_ok h1
      obtain ⟨n, hn, hC⟩ := counted_any h1
      rw [anyFromBerT_fst] at h1
      obtain ⟨e, -, hF⟩ := anyFromBer_framed.1 h1
      have hlen := framed_definite_length hF
      have hin := ih r.2 o h4 hlen (hP o (.head _))
      rw [objectFromAnyT_fst] at h4
      have hh := objectFromAny_header h4
      have e0 : (Tick.mapErr errOfNom (anyFromBerT i)).2 = (anyFromBerT i).2 := rfl
      have e1 : (Tick.free (.ok (o :: os)) : Tick BerError (List BerObject)).2 = 0 := rfl
      rw [h3, h6, h9, e0, e1, hin, ihf _ _ h7 fun o' ho' => hP o' (.tail _ ho'), hn]
      cases o with
      | mk h' x =>
        simp only [BerObject.header] at hh
        subst hh
        have hD := (objectFromAny_iff D d r.2.header r.2.data x hlen).1 h4
        rw [counted_tree hD (hP _ (.head _)) n hC]
        simp only [looksL, looks_mk, BerObject.content]
        omega

theorem leaf_looks {x : Content} (h : preorderC x 0 = []) : looksC 0 x = 0 := by
  cases x <;> try rfl
  all_goals
    rename_i l
    simp only [preorderC] at h
    cases l with
    | nil => rfl
    | cons o os => cases o; simp [preorderL, preorder] at h

theorem counted_objectFromAny (D : Deps) (d : Nat) : ∀ a o, (objectFromAnyT D d a).1 = .ok o →
    (∀ L, a.header.length = .definite L → a.data.length = L) → ListsOnly o →
    (objectFromAnyT D d a).2 = looksC 0 o.content := by
  induction d with
  | zero => intro a o ho; cases ho
  | succ d ih =>
    intro a o ho hlen hP
    rw [objectFromAnyT] at ho ⊢
    split at ho
    · rename_i hc
      rw [if_pos hc]
      cases ho
      rfl
    · rename_i hc
      rw [if_neg hc]
      obtain ⟨x, hx, rfl⟩ := Tick.map_ok ho
      have e0 : ∀ (y : Tick BerError Content), (y.map (BerObject.mk a.header)).2 = y.2 := fun _ => rfl
      rw [e0]
      unfold universalContentT at hx ⊢
      split at hx
      · obtain ⟨u, h1, h2, h3⟩ := Tick.bind_ok hx
        obtain ⟨l, h4, rfl⟩ := Tick.map_ok h2
        have e1 : ∀ (y : Tick BerError (List BerObject)), (y.map Content.sequence).2 = y.2 := fun _ => rfl
        have e3 : (Tick.free a.header.assertConstructed).2 = 0 := rfl
        rw [h3, e1, e3, Nat.zero_add,
          counted_collect ih _ _ l h4 fun o ho h c hn => hP h c (.seq _ l o ho hn)]
        rfl
      · obtain ⟨u, h1, h2, h3⟩ := Tick.bind_ok hx
        obtain ⟨l, h4, rfl⟩ := Tick.map_ok h2
        have e1 : ∀ (y : Tick BerError (List BerObject)), (y.map Content.set).2 = y.2 := fun _ => rfl
        have e3 : (Tick.free a.header.assertConstructed).2 = 0 := rfl
        rw [h3, e1, e3, Nat.zero_add,
          counted_collect ih _ _ l h4 fun o ho h c hn => hP h c (.set _ l o ho hn)]
        rfl
      · rename_i k1 k2
        have := universalContent_leaf_preorder hx k1 k2
        dsimp only [BerObject.content]
        rw [leaf_looks this]
        rfl

theorem counted_readAs (D : Deps) (i : Bytes) (h : Header) (d : Nat) (hd : d ≤ 50 ∨ h.length ≠ .indefinite)
    (r : Bytes × Content)
    (hr : (berReadElementContentAsT D i h.tag h.length h.constructed d).1 = .ok r)
    (hP : ListsOnly (.mk h r.2)) :
    1 + (berReadElementContentAsT D i h.tag h.length h.constructed d).2 = looks 0 (.mk h r.2) := by
  have go : ∀ r, ((getObjectContentT d (Header.new .universal h.constructed h.tag h.length) i).bind
      fun r => ((objectFromAnyT D d
        { header := Header.new .universal h.constructed h.tag h.length, data := r.2 }).mapErr
          NomErr.error).bind fun o => .free (.ok (r.1, o.content))).1 = .ok r → ListsOnly (.mk h r.2) →
      1 + ((getObjectContentT d (Header.new .universal h.constructed h.tag h.length) i).bind
      fun r => ((objectFromAnyT D d
        { header := Header.new .universal h.constructed h.tag h.length, data := r.2 }).mapErr
          NomErr.error).bind fun o => .free (.ok (r.1, o.content))).2 = looks 0 (.mk h r.2) := by
    intro r hr hP
    obtain ⟨a, h1, h2, h3⟩ := Tick.bind_ok hr
    obtain ⟨o, h4, h5, h6⟩ := Tick.bind_ok h2
    have h5 : (Outcome.ok (a.1, o.content) : Outcome (NomErr BerError) _) = .ok r := h5
    cases h5
    have h4 := Tick.mapErr_ok h4
    have hC : Counted (Header.new .universal h.constructed h.tag h.length) a.2
        (getObjectContentT d (Header.new .universal h.constructed h.tag h.length) i).2 := by
      rcases hd with hd | hd
      · exact getObjectContentT_counted hd h1
      · exact .inl ⟨hd, getObjectContentT_definite (h := Header.new .universal h.constructed h.tag h.length) hd i⟩
    have hlen : ∀ L, (Header.new .universal h.constructed h.tag h.length).length = .definite L →
        a.2.length = L := by
      intro L hL
      rw [getObjectContentT_fst] at h1
      exact (getObjectContent_def_len hL h1).2
    have h4' := h4
    rw [objectFromAnyT_fst] at h4'
    have hh := objectFromAny_header h4'
    cases o with
    | mk h' x =>
      simp only [BerObject.header] at hh
      subst hh
      have hP' : ListsOnly (.mk (Header.new .universal h.constructed h.tag h.length) x) := by
        intro hx cx hn hl
        cases hn with
        | self => exact hP _ _ .self hl
        | seq _ l o hm hn => exact hP _ _ (.seq _ l o hm hn) hl
        | set _ l o hm hn => exact hP _ _ (.set _ l o hm hn) hl
      have hD := (objectFromAny_iff D d _ a.2 x hlen).1 h4'
      have k1 := counted_tree hD hP' _ hC
      have k2 := counted_objectFromAny D d _ _ h4 hlen hP'
      rw [h3, h6]
      have e0 : ∀ (y : Tick BerError BerObject), (y.mapErr NomErr.error).2 = y.2 := fun _ => rfl
      have e1 : ∀ y : Outcome (NomErr BerError) (Bytes × Content), (Tick.free y).2 = 0 := fun _ => rfl
      rw [e0, e1, k1, k2, looks_mk]
      have e2 : skim (.mk (Header.new .universal h.constructed h.tag h.length) x) = skim (.mk h x) := rfl
      rw [e2]
      dsimp only [BerObject.content]
      omega
  unfold berReadElementContentAsT at hr ⊢
  cases hq : h.length with
  | indefinite => rw [hq] at go hr; exact go r hr hP
  | definite l =>
    rw [hq] at go hr
    dsimp only at hr ⊢
    split at hr
    · cases hr
    · rename_i h1
      rw [if_neg h1]
      split at hr
      · cases hr
      · rename_i h2
        rw [if_neg h2]
        exact go r hr hP

theorem counted_derReadAs (D : Deps) (i : Bytes) (h : Header) (d : Nat) (r : Bytes × Content)
    (hr : (derReadElementContentAsT D i h.tag h.length h.constructed d).1 = .ok r)
    (hP : ListsOnly (.mk h r.2)) :
    1 + (derReadElementContentAsT D i h.tag h.length h.constructed d).2 = looks 0 (.mk h r.2) := by
  unfold derReadElementContentAsT at hr ⊢
  obtain ⟨l, h1, h2, h3⟩ := Tick.bind_ok hr
  rw [h3]
  have e0 : ∀ y : Outcome (NomErr BerError) Nat, (Tick.free y).2 = 0 := fun _ => rfl
  have hl : h.length ≠ .indefinite := by
    intro hl
    rw [hl] at h1
    cases h1
  rw [e0, Nat.zero_add]
  split at h2
  · cases h2
  · rename_i hl'
    rw [if_neg hl']
    split at h2
    · rename_i ht
      rw [if_pos ht]
      have h2 : (if h.constructed then .err (.error (.derConstraintFailed .constructed))
        else derReadContentBitstring i l) = Outcome.ok r := h2
      have : preorderC r.2 0 = [] := by
        split at h2
        · cases h2
        · unfold derReadContentBitstring at h2
          split at h2
          · cases h2
          · split at h2
            · cases h2
            · split at h2
              · cases h2
              · obtain ⟨s, -, h7⟩ := bind_eq_ok.1 h2
                split at h7
                · split at h7
                  · cases h7
                  · split at h7
                    · cases h7; rfl
                    · cases h7
                · cases h7; rfl
      rw [looks_mk, leaf_looks this]
      simp only [skim, if_neg hl]
      rfl
    · rename_i ht
      rw [if_neg ht]
      obtain ⟨u, h4, h5, h6⟩ := Tick.bind_ok h2
      rw [h6]
      have e1 : ∀ y : Outcome (NomErr BerError) Unit, (Tick.free y).2 = 0 := fun _ => rfl
      rw [e1, Nat.zero_add]
      exact counted_readAs D i h d (.inr hl) r h5 hP

/-! ## C131 -/

theorem listsOnly_small (l : Length) (r r' : Option Bytes) : ListsOnly (.mk ⟨.universal, true, 16, l, r⟩
    (.sequence [.mk ⟨.universal, true, 17, .indefinite, r'⟩ (.set []), .mk (Tests.h .universal false 5 0 [0x05]) .null])) := by
  intro h' c' hn hl
  obtain ⟨d', h⟩ := (mem_preorder _ 0).2 hn
  simp only [preorder, preorderC, preorderL, List.mem_cons, List.cons_append, List.nil_append, List.append_nil,
    List.not_mem_nil, or_false, Prod.mk.injEq, BerObject.mk.injEq] at h
  rcases h with ⟨⟨rfl, rfl⟩, _⟩ | ⟨⟨rfl, rfl⟩, _⟩ | ⟨⟨rfl, rfl⟩, _⟩
  · exact ⟨_, .inl rfl⟩
  · exact ⟨_, .inr rfl⟩
  · cases hl

/-- C131: a successful `parse_ber` whose objects of indefinite length are SEQUENCEs and SETs reads the header
of every object once for the object and once more for each object of the unbroken run of indefinite-length
objects around it, and likewise every end-of-contents marker. -/
theorem C131_parse_ber (D : Deps) (d : Nat) (i rem : Bytes) (o : BerObject)
    (h : parseBerRecursive D d i = .ok (rem, o)) (hP : ListsOnly o) :
    (parseBerRecursiveT D d i).2 = looks 0 o := by
  rw [← (C78_same_results D d 0 i).1] at h
  unfold parseBerRecursiveT at h ⊢
  split at h
  · cases h
  · rename_i hd
    rw [if_neg hd]
    obtain ⟨r, h1, h2, h3⟩ := Tick.bind_ok h
    obtain ⟨o', h4, h5, h6⟩ := Tick.bind_ok h2
    have h5 : (Outcome.ok (r.1, o') : Outcome (NomErr BerError) _) = .ok (rem, o) := h5
    cases h5
    have h4 := Tick.mapErr_ok h4
    obtain ⟨n, hn, hC⟩ := counted_any h1
    rw [anyFromBerT_fst] at h1
    obtain ⟨e, -, hF⟩ := anyFromBer_framed.1 h1
    have hlen := framed_definite_length hF
    have k2 := counted_objectFromAny D d _ _ h4 hlen hP
    rw [objectFromAnyT_fst] at h4
    have hh := objectFromAny_header h4
    have e0 : ∀ (y : Tick BerError BerObject), (y.mapErr NomErr.error).2 = y.2 := fun _ => rfl
    have e1 : (Tick.free (.ok (r.1, o)) : Tick (NomErr BerError) (Bytes × BerObject)).2 = 0 := rfl
    rw [h3, h6, e0, e1, k2, hn]
    cases o with
    | mk h' x =>
      simp only [BerObject.header] at hh
      subst hh
      have hD := (objectFromAny_iff D d r.2.header r.2.data x hlen).1 h4
      rw [counted_tree hD hP n hC, looks_mk]
      rfl

example := C131_parse_ber Tests.D0 50 [0x30, 0x80, 0x31, 0x80, 0, 0, 0x05, 0x00, 0, 0, 9] [9] _ rfl (listsOnly_small _ _ _)

/-- C131: likewise for `parse_ber_with_tag`. -/
theorem C131_parse_ber_with_tag (D : Deps) (t : Nat) (i rem : Bytes) (o : BerObject)
    (h : parseBerWithTag D t i = .ok (rem, o)) (hP : ListsOnly o) :
    (parseBerWithTagT D t i).2 = looks 0 o := by
  rw [← (C78_same_results D 0 t i).2.1] at h
  unfold parseBerWithTagT at h ⊢
  obtain ⟨r, h1, h2, h3⟩ := Tick.bind_ok h
  obtain ⟨u, h4, h5, h6⟩ := Tick.bind_ok h2
  obtain ⟨s, h7, h8, h9⟩ := Tick.bind_ok h5
  have h8 : (Outcome.ok (s.1, .mk r.2 s.2) : Outcome (NomErr BerError) _) = .ok (rem, o) := h8
  cases h8
  have e0 : (Tick.read (headerFromBer i)).2 = 1 := rfl
  have e1 : ∀ y : Outcome (NomErr BerError) Unit, (Tick.free y).2 = 0 := fun _ => rfl
  have e2 : (Tick.free (.ok (s.1, .mk r.2 s.2)) : Tick (NomErr BerError) (Bytes × BerObject)).2 = 0 := rfl
  rw [h3, h6, h9, e0, e1, e2, Nat.add_zero, Nat.zero_add]
  exact counted_readAs D _ _ _ (.inl (by decide)) _ h7 hP

example := C131_parse_ber_with_tag Tests.D0 16 [0x30, 0x80, 0x31, 0x80, 0, 0, 0x05, 0x00, 0, 0, 9] [9] _ rfl
  (listsOnly_small _ _ _)

/-- C131: likewise for `parse_der_with_tag`. -/
theorem C131_parse_der_with_tag (D : Deps) (t : Nat) (i rem : Bytes) (o : BerObject)
    (h : parseDerWithTag D t i = .ok (rem, o)) (hP : ListsOnly o) :
    (parseDerWithTagT D t i).2 = looks 0 o := by
  rw [← (C78_same_results D 0 t i).2.2.2] at h
  unfold parseDerWithTagT at h ⊢
  obtain ⟨r, h1, h2, h3⟩ := Tick.bind_ok h
  obtain ⟨u, h4, h5, h6⟩ := Tick.bind_ok h2
  obtain ⟨s, h7, h8, h9⟩ := Tick.bind_ok h5
  have h8 : (Outcome.ok (s.1, .mk r.2 s.2) : Outcome (NomErr BerError) _) = .ok (rem, o) := h8
  cases h8
  have e0 : (Tick.read (headerFromDer i)).2 = 1 := rfl
  have e1 : ∀ y : Outcome (NomErr BerError) Unit, (Tick.free y).2 = 0 := fun _ => rfl
  have e2 : (Tick.free (.ok (s.1, .mk r.2 s.2)) : Tick (NomErr BerError) (Bytes × BerObject)).2 = 0 := rfl
  rw [h3, h6, h9, e0, e1, e2, Nat.add_zero, Nat.zero_add]
  exact counted_derReadAs D _ _ _ _ h7 hP

example := C131_parse_der_with_tag Tests.D0 16 [0x30, 0x06, 0x31, 0x80, 0, 0, 0x05, 0x00, 9] [9] _ rfl
  (listsOnly_small _ _ _)

/-- C131: likewise for `parse_der`. -/
theorem C131_parse_der (D : Deps) (hD : TimesKnown D) (d : Nat) (i rem : Bytes) (o : BerObject)
    (h : parseDerRecursive D d i = .ok (rem, o)) (hP : ListsOnly o) :
    (parseDerRecursiveT D d i).2 = looks 0 o := by
  have rd : ∀ i hd, (derReadElementContentRecursiveT D i hd d).1 = .ok (rem, o) →
      1 + (derReadElementContentRecursiveT D i hd d).2 = looks 0 o := by
    intro i hd hr
    unfold derReadElementContentRecursiveT at hr ⊢
    split at hr
    · rename_i hc
      rw [if_pos hc]
      obtain ⟨x, hx, h1, h2⟩ := derUnknownT_ok hr
      dsimp only at hx
      subst hx
      have hl : hd.length ≠ .indefinite := by
        intro hl
        unfold derUnknownT at hr
        obtain ⟨s, -, h3, -⟩ := Tick.bind_ok hr
        have h3 : (Outcome.ok (s.1, .mk hd (.unknown { header := hd, data := s.2 })) :
          Outcome (NomErr BerError) (Bytes × BerObject)) = .ok (rem, .mk hd x) := h3
        cases h3
        obtain ⟨l, h4 | h4⟩ := hP _ _ .self hl <;> cases h4
      rw [h2 hl, looks_mk, leaf_looks h1]
      simp only [skim, if_neg hl]
    · rename_i hc
      rw [if_neg hc]
      have nu := noUnk_derReadElementContentAs hD i hd.tag hd.length hd.constructed d
      rw [← derReadElementContentAsT_fst] at nu
      dsimp only at hr ⊢
      split at hr
      · rename_i s hs
        cases hr
        exact counted_derReadAs D i hd d s hs hP
      · rename_i t ht
        exact absurd ht (nu t)
      · cases hr
      · cases hr
      · cases hr
  rw [← (C78_same_results D d 0 i).2.2.1] at h
  unfold parseDerRecursiveT at h ⊢
  obtain ⟨r, h1, h2, h3⟩ := Tick.bind_ok h
  have e0 : (Tick.read (headerFromDer i)).2 = 1 := rfl
  rw [h3, e0]
  split at h2
  · split at h2
    · cases h2
    · rename_i hm
      rw [if_neg hm]
      exact rd _ _ h2
  · exact rd _ _ h2

example := C131_parse_der Tests.D0 (fun _ _ _ => by simp [Tests.D0]) 50 [0x30, 0x06, 0x31, 0x80, 0, 0, 0x05, 0x00, 9] [9] _ rfl
  (listsOnly_small _ _ _)

/-- Nested empty-but-one SEQUENCEs of indefinite length, `n` around a NULL. -/
def Spec.nestedNull : Nat → BerObject
  | 0 => .mk ⟨.universal, false, 5, .definite 0, some [5]⟩ .null
  | n + 1 => .mk ⟨.universal, true, 16, .indefinite, some [0x30]⟩ (.sequence [nestedNull n])

theorem skim_nested (n : Nat) : skim (nestedNull n) = 2 * n := by
  induction n with
  | zero => rfl
  | succ n ih =>
    rw [nestedNull, skim, if_pos rfl, skimC, skimL, skimL, ih]
    omega

/-- C131: indefinite lengths cost a number of reads quadratic in the nesting: `n` of them around a NULL take
`(n + 1) ^ 2` reads. -/
theorem C131_quadratic (D : Deps) (d n : Nat) (i rem : Bytes)
    (h : parseBerRecursive D d i = .ok (rem, nestedNull n)) : (parseBerRecursiveT D d i).2 = (n + 1) ^ 2 := by
  have hP : ∀ n, ListsOnly (nestedNull n) := by
    intro n
    induction n with
    | zero =>
      intro h c hn hl
      cases hn
      cases hl
    | succ n ih =>
      intro h c hn hl
      cases hn with
      | self => exact ⟨_, .inl rfl⟩
      | seq _ l o hm hn =>
        obtain rfl : o = nestedNull n := by simpa using hm
        exact ih h c hn hl
  rw [C131_parse_ber D d i rem _ h (hP n)]
  clear h
  induction n with
  | zero => rfl
  | succ n ih =>
    have e := looks_mk ⟨.universal, true, 16, .indefinite, some [0x30]⟩ (.sequence [nestedNull n])
    rw [nestedNull, e, ← nestedNull, skim_nested, looksC, looksL, looksL, ih]
    have h1 := Nat.add_mul (n + 1) 1 (n + 1 + 1)
    have h2 := Nat.mul_add (n + 1) (n + 1) 1
    have h3 := Nat.mul_add n n 1
    simp only [Nat.pow_two] at *
    omega

/-- Non-trivial case: a SEQUENCE of indefinite length with a SEQUENCE of indefinite length around a NULL,
followed by a SEQUENCE of definite length around a SET of indefinite length. -/
example (D : Deps) :
    ∃ o, parseBerRecursive D 50 [0x30, 0x80, 0x30, 0x80, 5, 0, 0, 0, 0x30, 4, 0x31, 0x80, 0, 0, 0, 0] = .ok ([], o) ∧
      looks 0 o = 13 ∧
      (parseBerRecursiveT D 50 [0x30, 0x80, 0x30, 0x80, 5, 0, 0, 0, 0x30, 4, 0x31, 0x80, 0, 0, 0, 0]).2 = 13 :=
  ⟨_, rfl, rfl, rfl⟩

/-- Non-trivial case of `C131_quadratic`. -/
example (D : Deps) : parseBerRecursive D 50 [0x30, 0x80, 0x30, 0x80, 5, 0, 0, 0, 0, 0] = .ok ([], nestedNull 2) := rfl

end Verif
