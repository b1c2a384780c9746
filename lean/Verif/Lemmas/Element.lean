import Verif.Lemmas.HeaderSpec
/-!
# Element framing against the element grammar; depth limits
-/
namespace Verif
open Outcome Spec

/-! ## Grammar facts -/

theorem berHeader_nonempty {hb : Bytes} {h : Header} (H : BerHeader hb h) : 2 ≤ hb.length := by
  have := headerFromBer_pos (headerFromBer_iff.2 ⟨hb, rfl, H⟩ : headerFromBer (hb ++ []) = .ok ([], h))
  simpa using this

theorem berHeader_reads {hb : Bytes} {h : Header} (H : BerHeader hb h) :
    Reads headerFromBer hb h := fun _ => headerFromBer_iff.2 ⟨hb, rfl, H⟩

/-- Header octets are self-delimiting. -/
theorem berHeader_unique {hb hb' x x' : Bytes} {h h' : Header} (H : BerHeader hb h)
    (H' : BerHeader hb' h') (e : hb ++ x = hb' ++ x') : hb = hb' ∧ h = h' := by
  have h1 := berHeader_reads H x
  have h2 := berHeader_reads H' x'
  rw [e, h2] at h1
  simp at h1
  obtain ⟨rfl, rfl⟩ := h1
  exact ⟨List.append_cancel_right e, rfl⟩

theorem Element.mono {T X : Bytes → Prop} {n m : Nat} {e : Bytes} (h : Element T X n e)
    (hm : n ≤ m) : Element T X m e := by
  induction h generalizing m with
  | definite n l hb c h h1 h2 h3 h4 =>
    obtain ⟨k, rfl⟩ : ∃ k, m = k + 1 := ⟨m - 1, by omega⟩
    exact .definite k l hb c h h1 h2 h3 h4
  | indefinite n hb es t h h1 h2 h3 h4 ih =>
    obtain ⟨k, rfl⟩ : ∃ k, m = k + 2 := ⟨m - 2, by omega⟩
    exact .indefinite k hb es t h h1 h2 (fun e he => ih e he (by omega)) h4

theorem Element.weaken {T T' X : Bytes → Prop} (hT : ∀ t, T t → T' t) {n : Nat} {e : Bytes}
    (h : Element T X n e) : Element T' X n e := by
  induction h with
  | definite n l hb c h h1 h2 h3 h4 => exact .definite n l hb c h h1 h2 h3 h4
  | indefinite n hb es t h h1 h2 h3 h4 ih => exact .indefinite n hb es t h h1 h2 ih (hT t h4)

theorem eocHeader : BerHeader [0, 0] ⟨.universal, false, 0, .definite 0, some [0]⟩ := by
  refine ⟨⟨[0], [0], 0, rfl, ?_, ?_, by decide, by simp, rfl⟩, ?_, by simp⟩
  · exact IdentOctets.low 0 (by decide)
  · exact LenOctets.short 0 (by decide)
  · intro n hn; simp at hn; omega

theorem looseEoc_of_isEoc (t : Bytes) (h : IsEoc t) : LooseEoc t := by
  unfold IsEoc at h
  subst h
  exact ⟨_, eocHeader, rfl, rfl⟩

/-- What the exclusion `LooseEoc` means for a definite element. -/
theorem looseEoc_iff {hb c : Bytes} {h : Header} {l : Nat} (H : BerHeader hb h)
    (hl : h.length = .definite l) (hc : c.length = l) :
    LooseEoc (hb ++ c) ↔ l = 0 ∧ h.tag = 0 := by
  constructor
  · rintro ⟨h', H', h1, h2⟩
    obtain ⟨e, rfl⟩ := berHeader_unique H H' (x := c) (x' := []) (by simp)
    rw [hl] at h2
    simp at h2
    exact ⟨h2, h1⟩
  · rintro ⟨rfl, ht⟩
    obtain rfl : c = [] := List.length_eq_zero_iff.1 hc
    exact ⟨h, by simpa using H, ht, hl⟩

/-! ## Skipping -/

/-- Every element of the grammar is skipped exactly, whatever follows. -/
theorem skip_complete {n : Nat} {e : Bytes} (h : Element LooseEoc LooseEoc n e) :
    ∃ hb hd body, e = hb ++ body ∧ BerHeader hb hd ∧ ∀ x, skipContent n hd (body ++ x) = .ok (x, false) := by
  induction h with
  | definite n l hb c h h1 h2 h3 h4 =>
    refine ⟨hb, h, c, rfl, h1, fun x => ?_⟩
    simp only [skipContent, h2]
    rw [if_neg (show ¬(l = 0 ∧ h.tag = Tag.endOfContent) from fun hz => h4 ((looseEoc_iff h1 h2 h3).2 hz))]
    subst h3
    rw [takeStreaming_append]; rfl
  | indefinite n hb es t h h1 h2 h3 h4 ih =>
    refine ⟨hb, h, es.flatten ++ t, rfl, h1, fun x => ?_⟩
    simp only [skipContent, h2, h1.indef_constructed h2, if_true]
    have key : ∀ fuel, (es.flatten ++ t ++ x).length < fuel →
        skipLoop (skipContent (n + 1)) fuel (es.flatten ++ t ++ x) = .ok (x, false) := by
      clear h3
      induction es with
      | nil =>
        intro fuel hf
        obtain ⟨he, t1, t2, t3⟩ := h4
        cases fuel with
        | zero => omega
        | succ fuel =>
          simp [skipLoop, berHeader_reads t1 x, skipContent, t2, t3, Tag.endOfContent]
      | cons e es ihes =>
        intro fuel hf
        obtain ⟨hb', hd', body, rfl, g1, g2⟩ := ih e (by simp)
        have := berHeader_nonempty g1
        cases fuel with
        | zero => omega
        | succ fuel =>
          simp only [List.flatten_cons, List.append_assoc] at hf ⊢
          rw [skipLoop, berHeader_reads g1]
          simp only [ok_bind]
          rw [g2]
          simp only [ok_bind, Bool.false_eq_true, if_false]
          have := ihes (fun e he => ih e (by simp [he])) fuel (by simp at hf ⊢; omega)
          simpa using this
    exact key _ (by omega)

/-- Whatever is skipped is an element of the grammar. -/
theorem skip_sound {d : Nat} {i i1 rem : Bytes} {hd : Header} {b : Bool}
    (h1 : headerFromBer i = .ok (i1, hd)) (h2 : skipContent d hd i1 = .ok (rem, b)) :
    ∃ e, i = e ++ rem ∧ if b then LooseEoc e else Element LooseEoc LooseEoc d e := by
  induction d generalizing i i1 hd rem b with
  | zero => simp [skipContent] at h2
  | succ d ih =>
    obtain ⟨hb, rfl, H⟩ := headerFromBer_iff.1 h1
    simp only [skipContent] at h2
    split at h2
    · rename_i l hl
      split at h2
      · rename_i hz
        simp at h2
        obtain ⟨rfl, rfl⟩ := h2
        refine ⟨hb, rfl, ?_⟩
        simp only [if_true]
        exact ⟨hd, H, hz.2, by rw [hl, hz.1]⟩
      · rename_i hz
        obtain ⟨⟨r, c⟩, h3, h4⟩ := bind_eq_ok.1 h2
        obtain ⟨rfl, hlen⟩ := takeStreaming_ok h3
        simp at h4
        obtain ⟨rfl, rfl⟩ := h4
        exact ⟨hb ++ c, by simp, by
          simp only [Bool.false_eq_true, if_false]
          exact .definite d l hb c hd H hl hlen fun hx => hz ((looseEoc_iff H hl hlen).1 hx)⟩
    · rename_i hl
      split at h2
      · have key : ∀ fuel (i : Bytes), skipLoop (skipContent d) fuel i = .ok (rem, b) →
            b = false ∧ d ≠ 0 ∧ ∃ (es : List Bytes) (t : Bytes), i = es.flatten ++ t ++ rem ∧
              (∀ e ∈ es, Element LooseEoc LooseEoc d e) ∧ LooseEoc t := by
          intro fuel
          induction fuel with
          | zero => intro i h; simp [skipLoop] at h
          | succ fuel ihf =>
            intro i h
            unfold skipLoop at h
            obtain ⟨⟨i2, hd2⟩, g1, g2⟩ := bind_eq_ok.1 h
            obtain ⟨⟨i3, eoc⟩, g3, g4⟩ := bind_eq_ok.1 g2
            have hd0 : d ≠ 0 := by
              intro h0; subst h0; simp [skipContent] at g3
            obtain ⟨e, rfl, he⟩ := ih g1 g3
            simp only at g4
            split at g4
            · rename_i heoc
              rw [if_pos heoc] at he
              simp at g4
              obtain ⟨rfl, rfl⟩ := g4
              exact ⟨rfl, hd0, [], e, by simp, by simp, he⟩
            · rename_i heoc
              rw [if_neg heoc] at he
              obtain ⟨hb, _, es, t, rfl, k1, k2⟩ := ihf i3 g4
              refine ⟨hb, hd0, e :: es, t, by simp, ?_, k2⟩
              intro e' he'
              rcases List.mem_cons.1 he' with rfl | he'
              · exact he
              · exact k1 e' he'
        obtain ⟨rfl, hd0, es, t, rfl, k1, k2⟩ := key _ _ h2
        refine ⟨hb ++ (es.flatten ++ t), by simp, ?_⟩
        simp only [Bool.false_eq_true, if_false]
        obtain ⟨k, rfl⟩ : ∃ k, d = k + 1 := ⟨d - 1, by omega⟩
        exact .indefinite k hb es t hd H hl k1 k2
      · simp at h2

/-- Content of an indefinite-length element: elements of the grammar and a terminator, from
which two bytes are removed. -/
theorem getObjectContent_indef {d : Nat} {hd : Header} {i rem c : Bytes}
    (hl : hd.length = .indefinite) (h : getObjectContent d hd i = .ok (rem, c)) :
    ∃ (es : List Bytes) (t : Bytes) (n : Nat), d = n + 2 ∧ i = es.flatten ++ t ++ rem ∧
      (∀ e ∈ es, Element LooseEoc LooseEoc (n + 1) e) ∧ LooseEoc t ∧
      c = (es.flatten ++ t).take ((es.flatten ++ t).length - 2) := by
  obtain ⟨pre, b, rfl, h1, rfl⟩ := getObjectContent_ok h
  cases d with
  | zero => simp [skipContent] at h1
  | succ d =>
    have hb : BerHeader [0x30, 0x80] ⟨.universal, true, 16, .indefinite, some [0x30]⟩ := by
      refine ⟨⟨[0x30], [0x80], 16, rfl, ?_, .indefinite, by decide, by simp, rfl⟩, by simp, by simp⟩
      exact IdentOctets.low 0x30 (by decide)
    -- replace the header by a concrete one: only its length and flag matter
    have hc : hd.constructed = true := by
      simp only [skipContent, hl] at h1
      split at h1
      · assumption
      · simp at h1
    have h1' : skipContent (d + 1) ⟨.universal, true, 16, .indefinite, some [0x30]⟩ (pre ++ rem) =
        .ok (rem, b) := by
      simpa only [skipContent, hl, hc, if_true] using h1
    obtain ⟨e, he, hE⟩ := skip_sound (berHeader_reads hb (pre ++ rem)) h1'
    have hbf : b = false := by
      simp only [skipContent, if_true] at h1'
      obtain ⟨_, _, _, e, _⟩ := skipLoop_ok (local_skipContent d) h1'
      exact e
    subst hbf
    simp only [Bool.false_eq_true, if_false] at hE
    cases hE with
    | definite n l hb' c h g1 g2 g3 g4 =>
      exfalso
      have := berHeader_unique hb g1 (x := pre ++ rem) (x' := c ++ rem) (by rw [he]; simp)
      rw [← this.2] at g2
      simp at g2
    | indefinite n hb' es t h g1 g2 g3 g4 =>
      have := berHeader_unique hb g1 (x := pre ++ rem) (x' := es.flatten ++ t ++ rem)
        (by rw [he]; simp)
      obtain ⟨rfl, -⟩ := this
      have hp : pre = es.flatten ++ t := by
        have : [0x30, 0x80] ++ (pre ++ rem) = [0x30, 0x80] ++ (es.flatten ++ t ++ rem) := by
          rw [he]; simp
        exact List.append_cancel_right (List.append_cancel_left this)
      subst hp
      exact ⟨es, t, n, rfl, by simp, g3, g4, by simp [contentOf, hl]⟩

/-! ## Depth limit of the skipper -/

theorem skipLoop_congr {skip skip' : Header → Bytes → IRes BerError Bool} {e : NomErr BerError}
    (hs : ∀ h i r, skip h i = .ok r → skip' h i = .ok r ∨ skip' h i = .err e)
    {fuel : Nat} {i : Bytes} {r : Bytes × Bool} (h : skipLoop skip fuel i = .ok r) :
    skipLoop skip' fuel i = .ok r ∨ skipLoop skip' fuel i = .err e := by
  induction fuel generalizing i with
  | zero => simp [skipLoop] at h
  | succ fuel ih =>
    unfold skipLoop at h ⊢
    obtain ⟨⟨i2, hd2⟩, g1, g2⟩ := bind_eq_ok.1 h
    obtain ⟨⟨i3, eoc⟩, g3, g4⟩ := bind_eq_ok.1 g2
    rw [g1]
    simp only [ok_bind]
    rcases hs _ _ _ g3 with h' | h'
    · simp only at h'
      rw [h']
      simp only [ok_bind] at g4 ⊢
      split at g4
      · simp_all
      · rename_i he
        rw [if_neg he]
        exact ih g4
    · simp only at h'
      rw [h']
      exact .inr rfl

/-- Lowering the limit either keeps the result or gives `BerMaxDepth`. -/
theorem skipContent_lower {d d' : Nat} {hd : Header} {i : Bytes} {r : Bytes × Bool}
    (h : skipContent d hd i = .ok r) :
    skipContent d' hd i = .ok r ∨ skipContent d' hd i = .err (.error .berMaxDepth) := by
  induction d' generalizing d hd i r with
  | zero => exact .inr rfl
  | succ d' ih =>
    cases d with
    | zero => simp [skipContent] at h
    | succ d =>
      simp only [skipContent] at h ⊢
      split at h
      · rename_i l hl
        exact .inl h
      · rename_i hl
        split at h
        · rename_i hc
          simp only [if_pos hc]
          exact skipLoop_congr (fun h i r e => ih e) h
        · simp at h

/-- Raising the limit keeps successful results. -/
theorem skipContent_raise {d d' : Nat} (hd' : d ≤ d') {hd : Header} {i : Bytes} {r : Bytes × Bool}
    (h : skipContent d hd i = .ok r) : skipContent d' hd i = .ok r := by
  induction d generalizing d' hd i r with
  | zero => simp [skipContent] at h
  | succ d ih =>
    obtain ⟨d', rfl⟩ : ∃ k, d' = k + 1 := ⟨d' - 1, by omega⟩
    simp only [skipContent] at h ⊢
    split at h
    · exact h
    · split at h
      · rename_i hc
        simp only [if_pos hc]
        rcases skipLoop_congr (e := .error .berMaxDepth) (skip' := skipContent d')
          (fun h i r e => .inl (ih (by omega) e)) h with h' | h'
        · exact h'
        · exfalso
          -- no child can fail
          have : ∀ fuel i, skipLoop (skipContent d) fuel i = .ok r →
              skipLoop (skipContent d') fuel i = .ok r := by
            intro fuel
            induction fuel with
            | zero => intro i h; simp [skipLoop] at h
            | succ fuel ihf =>
              intro i h
              unfold skipLoop at h ⊢
              obtain ⟨⟨i2, hd2⟩, g1, g2⟩ := bind_eq_ok.1 h
              obtain ⟨⟨i3, eoc⟩, g3, g4⟩ := bind_eq_ok.1 g2
              rw [g1]
              simp only [ok_bind] at g3 g4 ⊢
              rw [ih (by omega) g3]
              simp only [ok_bind]
              split at g4
              · simp_all
              · rename_i he
                rw [if_neg he]
                exact ihf _ g4
          rw [this _ _ h] at h'
          simp at h'
      · simp at h

theorem getObjectContent_raise {d d' : Nat} (hd' : d ≤ d') {hd : Header} {i : Bytes}
    {r : Bytes × Bytes} (h : getObjectContent d hd i = .ok r) :
    getObjectContent d' hd i = .ok r := by
  obtain ⟨rem, c⟩ := r
  obtain ⟨pre, b, rfl, h1, rfl⟩ := getObjectContent_ok h
  exact getObjectContent_of_skip (skipContent_raise hd' h1)

theorem getObjectContent_lower {d d' : Nat} {hd : Header} {i : Bytes} {r : Bytes × Bytes}
    (h : getObjectContent d hd i = .ok r) :
    getObjectContent d' hd i = .ok r ∨
      getObjectContent d' hd i = .err (.error .berMaxDepth) := by
  obtain ⟨rem, c⟩ := r
  obtain ⟨pre, b, rfl, h1, rfl⟩ := getObjectContent_ok h
  rcases skipContent_lower (d' := d') h1 with h2 | h2
  · exact .inl (getObjectContent_of_skip h2)
  · exact .inr (by simp [getObjectContent, h2])

/-! ## Depth limit of object conversion -/

theorem collectItems_depth {conv conv' : Any → Res BerObject} {k : Nat} {e : BerError}
    (hc : ∀ a o, conv a = .ok o → conv' a = if depth o ≤ k then .ok o else .err e)
    {fuel : Nat} {data : Bytes} {os : List BerObject}
    (h : collectItems conv fuel data = .ok os) :
    collectItems conv' fuel data = if listDepth os ≤ k then .ok os else .err e := by
  induction fuel generalizing data os with
  | zero => simp [collectItems] at h
  | succ fuel ih =>
    cases data with
    | nil => simp [collectItems] at h ⊢; subst h; simp [listDepth]
    | cons b rest =>
      simp only [collectItems] at h ⊢
      obtain ⟨r, h1, h2⟩ := bind_eq_ok.1 h
      obtain ⟨o, h3, h4⟩ := bind_eq_ok.1 h2
      obtain ⟨os', h5, h6⟩ := bind_eq_ok.1 h4
      simp at h6
      subst h6
      rw [h1]
      simp only [ok_bind]
      rw [hc _ _ h3]
      have hm : listDepth (o :: os') = max (depth o) (listDepth os') := by simp [listDepth]
      rw [hm]
      by_cases hk : depth o ≤ k
      · rw [if_pos hk]
        simp only [ok_bind]
        rw [ih h5]
        by_cases hk' : listDepth os' ≤ k
        · rw [if_pos hk', if_pos (by omega)]; rfl
        · rw [if_neg hk', if_neg (by omega)]; rfl
      · rw [if_neg hk, if_neg (by omega)]; rfl

/-- Contents that hold no other object. -/
def Content.isLeaf : Content → Bool
  | .sequence _ => false
  | .set _ => false
  | .optionalNone => false
  | .optionalSome _ => false
  | .tagged _ _ _ => false
  | _ => true

/-- Outside SEQUENCE and SET, content decoding does not use the child converter and gives a
leaf. -/
theorem universalContent_leaf {D : Deps} {conv conv' : Any → Res BerObject} {a : Any}
    (h1 : uKind a.header.tag ≠ .sequence) (h2 : uKind a.header.tag ≠ .set) :
    universalContent D conv a = universalContent D conv' a ∧
      ∀ c, universalContent D conv a = .ok c → c.isLeaf = true := by
  unfold universalContent
  cases hk : uKind a.header.tag <;> simp only [hk, ne_eq, not_true_eq_false] at h1 h2 ⊢
  all_goals refine ⟨trivial, fun c hc => ?_⟩
  all_goals try (obtain ⟨_, _, rfl⟩ := map_eq_ok.1 hc; rfl)
  all_goals try (injection hc with hc; subst hc; rfl)
  all_goals try unfold strFromAny at hc
  all_goals (repeat' split at hc)
  all_goals first | (injection hc with hc; subst hc; rfl) | simp at hc

theorem universalContent_sequence {D : Deps} {conv : Any → Res BerObject} {a : Any}
    (h : uKind a.header.tag = .sequence) : universalContent D conv a =
      (a.header.assertConstructed >>? fun _ =>
        (collectItems conv (a.data.length + 1) a.data).map .sequence) := by
  simp [universalContent, h]

theorem universalContent_set {D : Deps} {conv : Any → Res BerObject} {a : Any}
    (h : uKind a.header.tag = .set) : universalContent D conv a =
      (a.header.assertConstructed >>? fun _ =>
        (collectItems conv (a.data.length + 1) a.data).map .set) := by
  simp [universalContent, h]

theorem contentDepth_leaf {c : Content} (h : c.isLeaf = true) : contentDepth c = 1 := by
  cases c <;> simp_all [Content.isLeaf, contentDepth]

theorem depth_pos (o : BerObject) : 1 ≤ depth o := by
  obtain ⟨hd, c⟩ := o
  cases c <;> simp [depth, contentDepth]

theorem objectFromAny_depth (D : Deps) {d : Nat} {a : Any} {o : BerObject}
    (h : objectFromAny D d a = .ok o) (d' : Nat) :
    objectFromAny D d' a = if depth o ≤ d' then .ok o else .err .berMaxDepth := by
  induction d generalizing a o d' with
  | zero => simp [objectFromAny] at h
  | succ d ih =>
    cases d' with
    | zero => rw [if_neg (by have := depth_pos o; omega)]; rfl
    | succ d' =>
      simp only [objectFromAny] at h ⊢
      split at h
      · rename_i hcls
        simp at h
        subst h
        rw [if_pos hcls, if_pos (by simp [depth, contentDepth])]
      · rename_i hcls
        rw [if_neg hcls]
        obtain ⟨c, h1, rfl⟩ := map_eq_ok.1 h
        by_cases hseq : uKind a.header.tag = .sequence
        · rw [universalContent_sequence hseq] at h1 ⊢
          obtain ⟨_, g1, g2⟩ := bind_eq_ok.1 h1
          obtain ⟨os, g3, rfl⟩ := map_eq_ok.1 g2
          simp only [g1, ok_bind, collectItems_depth (fun a o h => ih h d') g3]
          by_cases hk : listDepth os ≤ d'
          · rw [if_pos hk, if_pos (by simp [depth, contentDepth]; omega)]; rfl
          · rw [if_neg hk, if_neg (by simp [depth, contentDepth]; omega)]; rfl
        by_cases hset : uKind a.header.tag = .set
        · rw [universalContent_set hset] at h1 ⊢
          obtain ⟨_, g1, g2⟩ := bind_eq_ok.1 h1
          obtain ⟨os, g3, rfl⟩ := map_eq_ok.1 g2
          simp only [g1, ok_bind, collectItems_depth (fun a o h => ih h d') g3]
          by_cases hk : listDepth os ≤ d'
          · rw [if_pos hk, if_pos (by simp [depth, contentDepth]; omega)]; rfl
          · rw [if_neg hk, if_neg (by simp [depth, contentDepth]; omega)]; rfl
        · obtain ⟨e, hleaf⟩ := universalContent_leaf (conv := objectFromAny D d)
            (conv' := objectFromAny D d') (D := D) hseq hset
          rw [← e, h1, if_pos (by simp [depth, contentDepth_leaf (hleaf c h1)])]
          rfl

/-- NULL is an element, which the examples use. -/
theorem element_null {T : Bytes → Prop} {n : Nat} : Element T LooseEoc (n + 1) [0x05, 0x00] :=
  .definite n 0 [0x05, 0x00] [] _ (berHeader_read rfl) rfl rfl fun ⟨h, H, h1, _⟩ => by
    cases headerFromBer_iff.2 ⟨[5, 0], (List.append_nil _).symm, H⟩
    exact absurd h1 (by decide)

end Verif
