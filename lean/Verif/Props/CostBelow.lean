import Verif.Props.CostSchema
import Verif.Props.CostExact
/-!
# Number of header reads of composed parsers, from below: C140
-/
namespace Verif
open Outcome Spec

namespace Spec

/-- The number of objects in a tree made by a parser that is not composed. -/
def objects (o : BerObject) : Nat := (preorder o 0).length

mutual
/-- The headers that have to be read to find that the value of a composition is `o`, each looked at as
seldom as possible: one for each object that was read, one for each alternative that was tried in vain,
one for an element that is absent, and one at the end of a list, to see that there is no other element. -/
def headers : Schema → BerObject → Nat
  | .any, o => objects o
  | .typed _, o => objects o
  | .implicit _ _, o => objects o
  | .choice tag tags, o => (tag :: tags).idxOf o.header.tag + objects o
  | .sequenceOf s, .mk _ (.sequence l) => 2 + (l.map fun o => headers s o).sum
  | .setOf s, .mk _ (.set l) => 2 + (l.map fun o => headers s o).sum
  | .sequence ss, .mk _ (.sequence l) => 1 + headersAll ss l
  | .set ss, .mk _ (.set l) => 1 + headersAll ss l
  | .explicit _ s, .mk _ (.tagged _ _ o) => 1 + headers s o
  | .optional s, .mk _ (.optionalSome o) => headers s o
  | .optional _, .mk _ .optionalNone => 1
  | .explicitOptional _ s, .mk _ (.optionalSome (.mk _ (.tagged _ _ o))) => 1 + headers s o
  | .explicitOptional _ _, .mk _ .optionalNone => 1
  | _, _ => 0
/-- The same for the components of a SEQUENCE or SET. -/
def headersAll : List Schema → List BerObject → Nat
  | s :: ss, o :: os => headers s o + headersAll ss os
  | _, _ => 0
end

mutual
/-- No element is absent and no length is indefinite. -/
def Full : BerObject → Prop
  | .mk h c => h.length ≠ .indefinite ∧ FullC c
/-- The same for contents. -/
def FullC : Content → Prop
  | .sequence l => FullL l
  | .set l => FullL l
  | .optionalNone => False
  | .optionalSome o => Full o
  | .tagged _ _ o => Full o
  | _ => True
/-- The same for a list. -/
def FullL : List BerObject → Prop
  | [] => True
  | o :: os => Full o ∧ FullL os
end

end Spec

/-! ## Lemmas -/

theorem fullL_mem : ∀ {l : List BerObject}, FullL l → ∀ o ∈ l, Full o
  | _ :: _, h, o, ho => by
    rw [FullL] at h
    rcases List.mem_cons.1 ho with rfl | ho
    · exact h.1
    · exact fullL_mem h.2 o ho

theorem full_node {o' o : BerObject} (h : Node o' o) : Full o → Full o' := by
  induction h with
  | self => exact id
  | seq _ l o hm _ ih => intro hf; rw [Full, FullC] at hf; exact ih (fullL_mem hf.2 o hm)
  | set _ l o hm _ ih => intro hf; rw [Full, FullC] at hf; exact ih (fullL_mem hf.2 o hm)

theorem full_allDefinite {o : BerObject} (h : Full o) : AllDefinite o := by
  intro o' hn
  have := full_node hn h
  cases o'
  rw [Full] at this
  exact this.1

section
variable {α β : Type}

/-- On success at least as many headers are read as `g` says, and exactly as many if `P`. -/
def Least (p : Ticker α) (g : α → Nat) (P : α → Prop) : Prop :=
  ∀ i r, (p i).1 = .ok r → g r.2 ≤ (p i).2 ∧ (P r.2 → (p i).2 = g r.2)

theorem tick_free_snd {ε : Type} (x : Outcome ε α) : (Tick.free x).2 = 0 := rfl
theorem tick_free_fst {ε : Type} (x : Outcome ε α) : (Tick.free x).1 = x := rfl
theorem tick_read_snd {ε : Type} (x : Outcome ε α) : (Tick.read x).2 = 1 := rfl

theorem frameT_least {R : Rules} {i : Bytes} {s : Bytes × (Header × Bytes)} (h : (frameT R i).1 = .ok s) :
    1 ≤ (frameT R i).2 ∧ (s.2.1.length ≠ .indefinite → (frameT R i).2 = 1) ∧
    (R = .der → s.2.1.length ≠ .indefinite) := by
  cases R with
  | ber =>
    unfold frameT at h ⊢
    obtain ⟨r, h1, h2, h3⟩ := Tick.bind_ok h
    obtain ⟨t, h4, h5, h6⟩ := Tick.bind_ok h2
    rw [tick_free_fst, Outcome.ok.injEq] at h5
    subst h5
    dsimp only at h3 h6 ⊢
    rw [h3, h6, tick_read_snd, tick_free_snd]
    refine ⟨by omega, fun hl => ?_, nofun⟩
    cases hq : r.2.length with
    | definite n => rfl
    | indefinite => exact absurd hq hl
  | der =>
    unfold frameT at h ⊢
    obtain ⟨r, h1, h2, h3⟩ := Tick.bind_ok h
    obtain ⟨t, h4, h5, h6⟩ := Tick.bind_ok h2
    rw [tick_free_fst, Outcome.ok.injEq] at h5
    subst h5
    dsimp only at h3 h6 ⊢
    rw [h3, h6, tick_read_snd, tick_free_snd]
    cases hq : r.2.length with
    | definite n => exact ⟨by omega, fun _ => rfl, fun _ => by simp⟩
    | indefinite => rw [hq] at h4; cases h4

theorem containerT_ok {R : Rules} {f : Bytes → Header → Tick (NomErr BerError) (Bytes × α)} {i : Bytes}
    {r : Bytes × α} (h : (containerT R f i).1 = .ok r) :
    ∃ c hd q, (f c hd).1 = .ok q ∧ q.2 = r.2 ∧ 1 + (f c hd).2 ≤ (containerT R f i).2 ∧
      (hd.length ≠ .indefinite → (containerT R f i).2 = 1 + (f c hd).2) ∧
      (R = .der → hd.length ≠ .indefinite) := by
  unfold containerT at h ⊢
  obtain ⟨s, h1, h2, h3⟩ := Tick.bind_ok h
  obtain ⟨q, h4, h5, h6⟩ := Tick.bind_ok h2
  rw [tick_free_fst, Outcome.ok.injEq] at h5
  subst h5
  obtain ⟨a1, a2, a3⟩ := frameT_least h1
  rw [h3, h6, tick_free_snd]
  exact ⟨s.2.2, s.2.1, q, h4, rfl, by omega, fun hl => by rw [a2 hl]; omega, a3⟩

theorem definedT_least {R : Rules} {tag : Nat} {f : Ticker α} {g : α → Nat} {P : α → Prop} (h : Least f g P) :
    Least (definedT R tag f) (fun a => 1 + g a) (fun a => R = .der ∧ P a) := by
  intro i r hr
  obtain ⟨c, hd, q, h1, h2, h3, h4, h5⟩ := containerT_ok hr
  obtain ⟨u, h6, h7, h8⟩ := Tick.bind_ok h1
  rw [h8, tick_free_snd, Nat.zero_add] at h3 h4
  obtain ⟨a1, a2⟩ := h c q h7
  rw [h2] at a1 a2
  refine ⟨Nat.le_trans (Nat.add_le_add_left a1 1) h3, fun hP => ?_⟩
  have := h4 (h5 hP.1)
  rw [a2 hP.2] at this
  exact this

theorem mapT_least {f : Ticker α} {k : α → β} {g : α → Nat} {P : α → Prop} {g' : β → Nat} {P' : β → Prop}
    (h : Least f g P) (hg : ∀ a, g' (k a) = g a) (hP : ∀ a, P' (k a) → P a) : Least (mapT k f) g' P' := by
  intro i r hr
  unfold mapT at hr ⊢
  obtain ⟨q, h1, h2, h3⟩ := Tick.bind_ok hr
  rw [tick_free_fst, Outcome.ok.injEq] at h2
  subst h2
  rw [h3, tick_free_snd, Nat.add_zero]
  dsimp only
  rw [hg]
  exact ⟨(h i q h1).1, fun hp => (h i q h1).2 (hP _ hp)⟩

theorem completeCutT_ok {f : Ticker α} {i : Bytes} {r : Bytes × α} (h : (completeCutT f i).1 = .ok r) :
    (f i).1 = .ok r := by
  have h : complete (cut fun j => (f j).1) i = .ok r := h
  unfold complete cut at h
  cases hq : (f i).1 with
  | ok q => simp [hq] at h; rw [h]
  | err e => cases e <;> simp [hq] at h
  | panic => simp [hq] at h
  | diverge => simp [hq] at h

theorem many0T_least {f : Ticker α} {g : α → Nat} {P : α → Prop} (h : Least f g P) :
    ∀ fuel i r, (many0T (completeCutT f) fuel i).1 = .ok r →
      (r.2.map g).sum + (f r.1).2 ≤ (many0T (completeCutT f) fuel i).2 ∧
      ((∀ a ∈ r.2, P a) → (many0T (completeCutT f) fuel i).2 = (r.2.map g).sum + (f r.1).2)
  | 0, i, r, hr => by cases hr
  | fuel + 1, i, r, hr => by
    unfold many0T at hr ⊢
    cases hq : (completeCutT f i).1 with
    | panic => simp [hq] at hr
    | diverge => simp [hq] at hr
    | err e =>
      cases e with
      | error e =>
        simp only [hq, Outcome.ok.injEq] at hr ⊢
        subst hr
        have : (completeCutT f i).2 = (f i).2 := rfl
        simp [this]
      | incomplete n => simp [hq] at hr
      | failure e => simp [hq] at hr
    | ok q =>
      simp only [hq] at hr ⊢
      split at hr
      · cases hr
      · rename_i hl
        rw [if_neg hl]
        dsimp only at hr ⊢
        obtain ⟨t, ht, ht'⟩ := bind_eq_ok.1 hr
        cases ht'
        obtain ⟨a1, a2⟩ := many0T_least h fuel q.1 t ht
        obtain ⟨b1, b2⟩ := h i q (completeCutT_ok hq)
        have e : (completeCutT f i).2 = (f i).2 := rfl
        simp only [List.map_cons, List.sum_cons, List.mem_cons, e]
        refine ⟨by omega, fun hP => ?_⟩
        rw [a2 fun a ha => hP a (.inr ha), b2 (hP _ (.inl rfl))]
        omega

theorem ofSubparserT_least {f : Ticker α} {g : α → Nat} {P : α → Prop} (h : Least f g P) (h0 : (f []).2 = 1) :
    Least (ofSubparserT f) (fun l => 1 + (l.map g).sum) (fun l => ∀ a ∈ l, P a) := by
  intro i r hr
  unfold ofSubparserT at hr ⊢
  obtain ⟨q, h1, h2, h3⟩ := Tick.bind_ok hr
  rw [h3, tick_free_snd, Nat.add_zero]
  rw [tick_free_fst] at h2
  obtain ⟨a1, a2⟩ := many0T_least h _ i q h1
  split at h2
  · rename_i hn
    cases h2
    rw [hn, h0] at a1 a2
    dsimp only
    exact ⟨by omega, fun hP => by rw [a2 hP]; omega⟩
  · cases h2

theorem explicitT_least {R : Rules} {tag : Nat} {k : Header → BerObject → BerObject} {f : Ticker BerObject}
    {g g' : BerObject → Nat} {P P' : BerObject → Prop} (h : Least f g P) (hg : ∀ hd o, g' (k hd o) = 1 + g o)
    (hP : ∀ hd o, P' (k hd o) → hd.length ≠ .indefinite ∧ P o) : Least (explicitT R tag k f) g' P' := by
  intro i r hr
  obtain ⟨c, hd, q, h1, h2, h3, h4, -⟩ := containerT_ok hr
  rw [← h2]
  have key : ∃ o, (f c).1 = .ok (q.1, o) ∧ q.2 = k hd o ∧ 1 + (f c).2 ≤ (explicitT R tag k f i).2 ∧
      (hd.length ≠ .indefinite → (explicitT R tag k f i).2 = 1 + (f c).2) := by
    split at h1
    · cases h1
    · rename_i hc
      rw [if_neg hc] at h3 h4
      obtain ⟨u, h6, h7, h8⟩ := Tick.bind_ok h1
      obtain ⟨v, h9, h10, h11⟩ := Tick.bind_ok h7
      obtain ⟨s, h12, h13, h14⟩ := Tick.bind_ok h10
      rw [tick_free_fst, Outcome.ok.injEq] at h13
      subst h13
      rw [h8, h11, h14, tick_free_snd, tick_free_snd, tick_free_snd, Nat.zero_add, Nat.zero_add, Nat.add_zero] at h3 h4
      exact ⟨s.2, h12, rfl, h3, h4⟩
  obtain ⟨o, k1, k2, k3, k4⟩ := key
  obtain ⟨a1, a2⟩ := h c _ k1
  dsimp only at a1 a2
  rw [k2, hg]
  refine ⟨by omega, fun hp => ?_⟩
  have := hP _ _ hp
  rw [k4 this.1, a2 this.2]

end

theorem retag_least {x : Tick (NomErr BerError) (Bytes × Content)} {hd : Header} {type : Nat} {r : Bytes × Content}
    (h : Exact x (fun r => (preorderC r.2 0).length) fun r => AllDefinite (.mk { hd with tag := type } r.2))
    (hr : x.1 = .ok r) :
    objects (.mk hd r.2) ≤ 1 + x.2 ∧ (AllDefinite (.mk hd r.2) → 1 + x.2 = objects (.mk hd r.2)) := by
  obtain ⟨a1, a2⟩ := h r hr
  rw [objects, preorder_mk]
  dsimp only at a1 a2
  refine ⟨by omega, fun hP => ?_⟩
  rw [a2 (allDefinite_header hP rfl)]

theorem implicitT_least (D : Deps) (R : Rules) (tag type : Nat) :
    Least (implicitT D R tag type) objects Full := by
  intro i r hr
  obtain ⟨c, hd, q, h1, h2, h3, h4, -⟩ := containerT_ok hr
  rw [← h2]
  obtain ⟨u, h6, h7, h8⟩ := Tick.bind_ok h1
  obtain ⟨s, h9, h10, h11⟩ := Tick.bind_ok h7
  rw [tick_free_fst, Outcome.ok.injEq] at h10
  subst h10
  rw [h8, h11, tick_free_snd, tick_free_snd, Nat.zero_add, Nat.add_zero] at h3 h4
  have key : ∀ x : Tick (NomErr BerError) (Bytes × Content),
      (Exact x (fun r => (preorderC r.2 0).length) fun r => AllDefinite (.mk { hd with tag := type } r.2)) →
      x.1 = .ok s → 1 + x.2 ≤ (implicitT D R tag type i).2 →
      (hd.length ≠ .indefinite → (implicitT D R tag type i).2 = 1 + x.2) →
      objects (.mk hd s.2) ≤ (implicitT D R tag type i).2 ∧
      (Full (.mk hd s.2) → (implicitT D R tag type i).2 = objects (.mk hd s.2)) := by
    intro x hx hs k3 k4
    obtain ⟨a1, a2⟩ := retag_least hx hs
    refine ⟨by omega, fun hP => ?_⟩
    rw [k4 (by rw [Full] at hP; exact hP.1), a2 (full_allDefinite hP)]
  cases R with
  | ber => exact key _ (exact_readAs D c { hd with tag := type } maxRecursion) h9 h3 h4
  | der => exact key _ (exact_derReadAs D c { hd with tag := type } maxRecursion) h9 h3 h4

theorem optionalT_least {f : Ticker BerObject} {g g' : BerObject → Nat} {P P' : BerObject → Prop}
    (h : Least f g P) (h1 : ∀ i, 1 ≤ (f i).2)
    (hs : ∀ hd o, g' (.mk hd (.optionalSome o)) = g o) (hn : g' (.fromObj .optionalNone) ≤ 1)
    (ps : ∀ hd o, P' (.mk hd (.optionalSome o)) → P o) (pn : ¬ P' (.fromObj .optionalNone)) :
    Least (optionalT f) g' P' := by
  intro i r hr
  have hr : parseOptional (fun j => (f j).1) i = .ok r := hr
  have e : (optionalT f i).2 = (f i).2 := rfl
  rw [e]
  unfold parseOptional at hr
  split at hr
  · rename_i q hq
    cases hr
    dsimp only
    rw [hs]
    exact ⟨(h i q hq).1, fun hp => (h i q hq).2 (ps _ _ hp)⟩
  · cases hr
    have := h1 i
    exact ⟨by dsimp only; omega, fun hp => absurd hp pn⟩
  · cases hr
  · cases hr

/-! ## At least one header -/

theorem tick_bind_least {ε α β : Type} {x : Tick ε α} {f : α → Tick ε β} (h : 1 ≤ x.2) : 1 ≤ (x.bind f).2 := by
  unfold Tick.bind
  split <;> (dsimp only; omega)

theorem containerT_one {α : Type} (R : Rules) (f : Bytes → Header → Tick (NomErr BerError) (Bytes × α)) (i : Bytes) :
    1 ≤ (containerT R f i).2 := by
  refine tick_bind_least ?_
  cases R <;> exact tick_bind_least (Nat.le_refl _)

theorem anyT_one (D : Deps) (R : Rules) (i : Bytes) : 1 ≤ ((Schema.any).runT D R i).2 := by
  cases R <;> simp only [Schema.runT]
  · have : maxRecursion ≠ 0 := by decide
    unfold parseBerRecursiveT
    rw [if_neg this]
    exact tick_bind_least (tick_bind_least (Nat.le_refl _))
  · exact tick_bind_least (Nat.le_refl _)

theorem typedT_one (D : Deps) (R : Rules) (tag : Nat) (i : Bytes) : 1 ≤ ((Schema.typed tag).runT D R i).2 := by
  cases R <;> simp only [Schema.runT] <;> exact tick_bind_least (Nat.le_refl _)

theorem altT_one {p : Nat → Ticker BerObject} (i : Bytes) (hp : ∀ t, 1 ≤ (p t i).2) :
    ∀ (tags : List Nat) (tag : Nat), 1 ≤ (altT p tag tags i).2
  | [], tag => by unfold altT; exact hp tag
  | t :: ts, tag => by
    have := hp tag
    unfold altT
    split <;> (dsimp only; omega)

theorem runT_one (D : Deps) (R : Rules) : ∀ (s : Schema) (i : Bytes), 1 ≤ (s.runT D R i).2
  | .any, i => anyT_one D R i
  | .typed tag, i => typedT_one D R tag i
  | .sequenceOf s, i => by simp only [Schema.runT, mapT]; exact tick_bind_least (containerT_one R _ i)
  | .setOf s, i => by simp only [Schema.runT, mapT]; exact tick_bind_least (containerT_one R _ i)
  | .sequence l, i => by simp only [Schema.runT, mapT]; exact tick_bind_least (containerT_one R _ i)
  | .set l, i => by simp only [Schema.runT, mapT]; exact tick_bind_least (containerT_one R _ i)
  | .explicit tag s, i => by simp only [Schema.runT]; exact containerT_one R _ i
  | .implicit tag type, i => by simp only [Schema.runT]; exact containerT_one R _ i
  | .optional s, i => by simp only [Schema.runT]; exact runT_one D R s i
  | .explicitOptional tag s, i => by simp only [Schema.runT]; exact containerT_one .ber _ i
  | .choice tag tags, i => by
    cases R <;> simp only [Schema.runT]
    · exact altT_one i (fun t => by have := typedT_one D .ber t i; simpa only [Schema.runT] using this) tags tag
    · exact altT_one i (fun t => by have := typedT_one D .der t i; simpa only [Schema.runT] using this) tags tag

/-! ## No octets -/

theorem headerFromBer_empty : headerFromBer [] = .err (.incomplete (Needed.new 1)) := rfl
theorem headerFromDer_empty : headerFromDer [] = .err (.incomplete (Needed.new 1)) := rfl

theorem tick_bind_err {ε α β : Type} {x : Tick ε α} {f : α → Tick ε β} {e : ε} (h : x.1 = .err e) :
    x.bind f = (.err e, x.2) := by
  unfold Tick.bind; rw [h]

theorem containerT_empty {α : Type} (R : Rules) (f : Bytes → Header → Tick (NomErr BerError) (Bytes × α)) :
    containerT R f [] = (.err (.incomplete (Needed.new 1)), 1) := by
  have : frameT R [] = (.err (.incomplete (Needed.new 1)), 1) := by
    have hb : (Tick.read (headerFromBer [])).1 = .err (.incomplete (Needed.new 1)) := headerFromBer_empty
    have hd : (Tick.read (headerFromDer [])).1 = .err (.incomplete (Needed.new 1)) := headerFromDer_empty
    cases R <;> unfold frameT
    · rw [tick_bind_err hb]; rfl
    · rw [tick_bind_err hd]; rfl
  unfold containerT
  rw [this]
  exact tick_bind_err rfl

theorem typedT_empty (D : Deps) (R : Rules) (tag : Nat) :
    (Schema.typed tag).runT D R [] = (.err (.incomplete (Needed.new 1)), 1) := by
  cases R <;> simp only [Schema.runT]
  · exact tick_bind_err (x := Tick.read (headerFromBer [])) headerFromBer_empty
  · exact tick_bind_err (x := Tick.read (headerFromDer [])) headerFromDer_empty

theorem altT_empty {p : Nat → Ticker BerObject} (hp : ∀ t, p t [] = (.err (.incomplete (Needed.new 1)), 1))
    (tags : List Nat) (tag : Nat) : altT p tag tags [] = (.err (.incomplete (Needed.new 1)), 1) := by
  unfold altT
  split
  · exact hp tag
  · simp [hp tag]

theorem runT_empty (D : Deps) (R : Rules) : ∀ s : Schema, (s.runT D R []).2 = 1
  | .any => by
    cases R <;> simp only [Schema.runT]
    · have h0 : maxRecursion ≠ 0 := by decide
      have h1 : anyFromBerT [] = (.err (.incomplete (Needed.new 1)), 1) := tick_bind_err headerFromBer_empty
      unfold parseBerRecursiveT
      rw [if_neg h0, h1, tick_bind_err rfl]
    · have h1 : (Tick.read (headerFromDer [])).1 = .err (.incomplete (Needed.new 1)) := headerFromDer_empty
      unfold parseDerRecursiveT
      rw [tick_bind_err h1]
      rfl
  | .typed tag => by rw [typedT_empty]
  | .sequenceOf s => by simp only [Schema.runT, mapT, definedT]; rw [containerT_empty, tick_bind_err rfl]
  | .setOf s => by simp only [Schema.runT, mapT, definedT]; rw [containerT_empty, tick_bind_err rfl]
  | .sequence l => by simp only [Schema.runT, mapT, definedT]; rw [containerT_empty, tick_bind_err rfl]
  | .set l => by simp only [Schema.runT, mapT, definedT]; rw [containerT_empty, tick_bind_err rfl]
  | .explicit tag s => by simp only [Schema.runT, explicitT]; rw [containerT_empty]
  | .implicit tag type => by simp only [Schema.runT, implicitT]; rw [containerT_empty]
  | .optional s => by simp only [Schema.runT, optionalT]; exact runT_empty D R s
  | .explicitOptional tag s => by simp only [Schema.runT, optionalT, explicitT]; rw [containerT_empty]
  | .choice tag tags => by
    cases R <;> simp only [Schema.runT]
    · rw [altT_empty fun t => by have := typedT_empty D .ber t; simpa only [Schema.runT] using this]
    · rw [altT_empty fun t => by have := typedT_empty D .der t; simpa only [Schema.runT] using this]

/-! ## Alternatives -/

/-- What a typed parser does with an element: if the header can be read, only its own tag is accepted, and
another tag costs one header. -/
structure Picky (p : Nat → Ticker BerObject) : Prop where
  own : ∀ t i r, (p t i).1 = .ok r → r.2.header.tag = t
  other : ∀ t u i r, (p t i).1 = .ok r → u ≠ t → (∃ e, (p u i).1 = .err (.error e)) ∧ (p u i).2 = 1
  least : ∀ t, Least (p t) objects Full

theorem altT_least {p : Nat → Ticker BerObject} (hp : Picky p) : ∀ (tags : List Nat) (tag : Nat),
    Least (altT p tag tags) (fun o => (tag :: tags).idxOf o.header.tag + objects o) Full
  | [], tag => fun i r hr => by
    unfold altT at hr ⊢
    dsimp only at hr ⊢
    rw [hp.own tag i r hr]
    have := hp.least tag i r hr
    simpa using this
  | t :: ts, tag => fun i r hr => by
    have ih := altT_least hp ts t i r
    unfold altT at hr ⊢
    dsimp only at hr ⊢
    by_cases hs : ∃ q, (p tag i).1 = .ok q
    · obtain ⟨q, hq⟩ := hs
      simp only [hq, Outcome.ok.injEq] at hr ⊢
      subst hr
      rw [hp.own tag i q hq]
      have := hp.least tag i q hq
      simpa using this
    · cases hq : (p tag i).1 with
      | ok q => exact absurd ⟨q, hq⟩ hs
      | panic => simp [hq] at hr
      | diverge => simp [hq] at hr
      | err e =>
        cases e with
        | incomplete n => simp [hq] at hr
        | failure e => simp [hq] at hr
        | error e =>
          simp only [hq] at hr ⊢
          obtain ⟨a1, a2⟩ := ih hr
          have ⟨t', ht'⟩ : ∃ t', (p t' i).1 = .ok r := by
            clear ih a1 a2
            revert hr
            clear hq hs
            induction ts generalizing t with
            | nil => intro hr; unfold altT at hr; exact ⟨t, hr⟩
            | cons u us ih =>
              intro hr
              unfold altT at hr
              split at hr
              · exact ih u hr
              · exact ⟨t, hr⟩
          have hne : tag ≠ t' := by
            rintro rfl
            rw [hq] at ht'
            cases ht'
          obtain ⟨-, h1⟩ := hp.other t' tag i r ht' hne
          have ho := hp.own t' i r ht'
          have hx : (tag :: t :: ts).idxOf r.2.header.tag = (t :: ts).idxOf r.2.header.tag + 1 := by
            rw [List.idxOf_cons]
            have : (tag == r.2.header.tag) = false := by rw [ho]; simpa using hne
            rw [this]
            rfl
          dsimp only at a1 a2
          rw [hx, h1]
          exact ⟨by omega, fun hP => by rw [a2 hP]; omega⟩

theorem assertTag_lift_ok {h : Header} {t : Nat} {u : Unit} (hq : liftRes (h.assertTag t) = .ok u) : h.tag = t := by
  unfold liftRes Header.assertTag at hq
  split at hq
  · assumption
  · cases hq

theorem assertTag_lift_other {h : Header} {t : Nat} (hq : h.tag ≠ t) : ∃ e, liftRes (h.assertTag t) = .err (.error e) := by
  unfold liftRes Header.assertTag
  rw [if_neg hq]
  exact ⟨_, rfl⟩

theorem picky_typed (D : Deps) (R : Rules) : Picky fun tag => (Schema.typed tag).runT D R := by
  have gen : ∀ (hdr : Bytes → IRes BerError Header)
      (body : Bytes → Header → Tick (NomErr BerError) (Bytes × Content)) (p : Nat → Ticker BerObject),
      (∀ t i, p t i = (Tick.read (hdr i)).bind fun r => (Tick.free (liftRes (r.2.assertTag t))).bind fun _ =>
        (body r.1 r.2).bind fun s => .free (.ok (s.1, .mk r.2 s.2))) →
      (∀ t, Least (p t) objects Full) → Picky p := by
    intro hdr body p hp hl
    refine ⟨fun t i r hr => ?_, fun t u i r hr hu => ?_, hl⟩
    · rw [hp] at hr
      obtain ⟨a, h1, h2, -⟩ := Tick.bind_ok hr
      obtain ⟨b, h4, h5, -⟩ := Tick.bind_ok h2
      obtain ⟨c, h7, h8, -⟩ := Tick.bind_ok h5
      rw [tick_free_fst, Outcome.ok.injEq] at h8
      subst h8
      exact assertTag_lift_ok h4
    · rw [hp] at hr
      obtain ⟨a, h1, h2, -⟩ := Tick.bind_ok hr
      obtain ⟨b, h4, h5, -⟩ := Tick.bind_ok h2
      have ht := assertTag_lift_ok h4
      obtain ⟨e, he⟩ := assertTag_lift_other (h := a.2) (t := u) (by rw [ht]; exact Ne.symm hu)
      have h1 : hdr i = .ok a := h1
      have : p u i = (.err (.error e), 1) := by
        rw [hp]
        unfold Tick.bind Tick.read Tick.free
        simp only [h1, he]
      rw [this]
      exact ⟨⟨e, rfl⟩, rfl⟩
  cases R with
  | ber =>
    refine gen headerFromBer (fun i h => berReadElementContentAsT D i h.tag h.length h.constructed maxRecursion) _
      (fun t i => by simp only [Schema.runT]; rfl) fun t i r hr => ?_
    simp only [Schema.runT] at hr ⊢
    have := C95_parse_ber_with_tag D t i r.1 r.2 (by rw [← (C78_same_results D 0 t i).2.1]; exact hr)
    exact ⟨this.1, fun hP => this.2 (full_allDefinite hP)⟩
  | der =>
    refine gen headerFromDer (fun i h => derReadElementContentAsT D i h.tag h.length h.constructed maxRecursion) _
      (fun t i => by simp only [Schema.runT]; rfl) fun t i r hr => ?_
    simp only [Schema.runT] at hr ⊢
    have := C95_parse_der_with_tag D t i r.1 r.2 (by rw [← (C78_same_results D 0 t i).2.2.2]; exact hr)
    exact ⟨this.1, fun hP => this.2 (full_allDefinite hP)⟩

/-! ## Compositions -/

theorem Least.mono {α : Type} {p : Ticker α} {g : α → Nat} {P Q : α → Prop} (h : Least p g P) (hQ : ∀ a, Q a → P a) :
    Least p g Q := fun i r hr => ⟨(h i r hr).1, fun hp => (h i r hr).2 (hQ _ hp)⟩

mutual
theorem runT_least (D : Deps) (hD : TimesKnown D) (R : Rules) : ∀ s : Schema,
    Least (s.runT D R) (headers s) fun o => R = .der ∧ Full o
  | .any => by
    intro i r hr
    cases R with
    | ber =>
      simp only [Schema.runT] at hr ⊢
      have := C95_parse_ber D maxRecursion i r.1 r.2 (by rw [← (C78_same_results D _ 0 i).1]; exact hr)
      simp only [headers]
      exact ⟨this.1, fun hP => this.2 (full_allDefinite hP.2)⟩
    | der =>
      simp only [Schema.runT] at hr ⊢
      have := C95_parse_der D hD maxRecursion i r.1 r.2 (by rw [← (C78_same_results D _ 0 i).2.2.1]; exact hr)
      simp only [headers]
      exact ⟨this.1, fun hP => this.2 (full_allDefinite hP.2)⟩
  | .typed tag => by
    intro i r hr
    have := (picky_typed D R).least tag i r hr
    simp only [headers]
    exact ⟨this.1, fun hP => this.2 hP.2⟩
  | .sequenceOf s => by
    intro i r hr
    simp only [Schema.runT] at hr ⊢
    refine mapT_least (g' := headers (.sequenceOf s)) (P' := fun o => R = .der ∧ Full o) (definedT_least (ofSubparserT_least (runT_least D hD R s) (runT_empty D R s)))
      (fun l => ?_) (fun l hl => ?_) i r hr
    · simp only [headers, BerObject.fromSeq, BerObject.fromObj]; show 2 + (l.map (headers s)).sum = _; omega
    · refine ⟨hl.1, fun a ha => ⟨hl.1, ?_⟩⟩
      have := hl.2
      simp only [BerObject.fromSeq, BerObject.fromObj, Full, FullC] at this
      exact fullL_mem this.2 a ha
  | .setOf s => by
    intro i r hr
    simp only [Schema.runT] at hr ⊢
    refine mapT_least (g' := headers (.setOf s)) (P' := fun o => R = .der ∧ Full o) (definedT_least (ofSubparserT_least (runT_least D hD R s) (runT_empty D R s)))
      (fun l => ?_) (fun l hl => ?_) i r hr
    · simp only [headers, BerObject.fromSet, BerObject.fromObj]; show 2 + (l.map (headers s)).sum = _; omega
    · refine ⟨hl.1, fun a ha => ⟨hl.1, ?_⟩⟩
      have := hl.2
      simp only [BerObject.fromSet, BerObject.fromObj, Full, FullC] at this
      exact fullL_mem this.2 a ha
  | .sequence ss => by
    intro i r hr
    simp only [Schema.runT] at hr ⊢
    refine mapT_least (g' := headers (.sequence ss)) (P' := fun o => R = .der ∧ Full o) (definedT_least (runAllT_least D hD R ss)) (fun l => ?_) (fun l hl => ?_) i r hr
    · simp only [headers, BerObject.fromSeq, BerObject.fromObj]
    · have := hl.2
      simp only [BerObject.fromSeq, BerObject.fromObj, Full, FullC] at this
      exact ⟨hl.1, hl.1, this.2⟩
  | .set ss => by
    intro i r hr
    simp only [Schema.runT] at hr ⊢
    refine mapT_least (g' := headers (.set ss)) (P' := fun o => R = .der ∧ Full o) (definedT_least (runAllT_least D hD R ss)) (fun l => ?_) (fun l hl => ?_) i r hr
    · simp only [headers, BerObject.fromSet, BerObject.fromObj]
    · have := hl.2
      simp only [BerObject.fromSet, BerObject.fromObj, Full, FullC] at this
      exact ⟨hl.1, hl.1, this.2⟩
  | .explicit tag s => by
    intro i r hr
    simp only [Schema.runT] at hr ⊢
    refine explicitT_least (g' := headers (.explicit tag s)) (P' := fun o => R = .der ∧ Full o) (runT_least D hD R s) (fun hd o => ?_) (fun hd o hP => ?_) i r hr
    · simp only [headers]
    · have := hP.2
      simp only [Full, FullC] at this
      exact ⟨this.1, hP.1, this.2⟩
  | .implicit tag type => by
    intro i r hr
    simp only [Schema.runT] at hr ⊢
    simp only [headers]
    exact ((implicitT_least D R tag type).mono (Q := fun o => R = .der ∧ Full o) fun _ h => h.2) i r hr
  | .optional s => by
    intro i r hr
    simp only [Schema.runT] at hr ⊢
    refine optionalT_least (g' := headers (.optional s)) (P' := fun o => R = .der ∧ Full o) (runT_least D hD R s) (runT_one D R s) (fun hd o => ?_) ?_ (fun hd o hP => ?_) ?_ i r hr
    · simp only [headers]
    · simp only [BerObject.fromObj, headers]; omega
    · have := hP.2
      simp only [Full, FullC] at this
      exact ⟨hP.1, this.2⟩
    · intro hP
      have := hP.2
      simp only [BerObject.fromObj, Full, FullC, and_false] at this
  | .explicitOptional tag s => by
    intro i r hr
    simp only [Schema.runT] at hr ⊢
    have h1 : Least (explicitT .ber tag (fun hdr o => .mk hdr (.tagged hdr.cls hdr.tag o)) (s.runT D R))
        (fun o => match o with | .mk _ (.tagged _ _ o) => 1 + headers s o | _ => 0) (fun o => R = .der ∧ Full o) := by
      refine explicitT_least (runT_least D hD R s) (fun hd o => rfl) (fun hd o hP => ?_)
      have := hP.2
      simp only [Full, FullC] at this
      exact ⟨this.1, hP.1, this.2⟩
    refine optionalT_least (g' := headers (.explicitOptional tag s)) (P' := fun o => R = .der ∧ Full o) h1 (fun i => containerT_one .ber _ i) (fun hd o => ?_) ?_ (fun hd o hP => ?_) ?_ i r hr
    · obtain ⟨hd', c⟩ := o
      cases c <;> simp only [headers]
    · simp only [BerObject.fromObj, headers]; omega
    · have := hP.2
      simp only [Full, FullC] at this
      exact ⟨hP.1, this.2⟩
    · intro hP
      have := hP.2
      simp only [BerObject.fromObj, Full, FullC, and_false] at this
  | .choice tag tags => by
    intro i r hr
    have hp := picky_typed D R
    have := (altT_least hp tags tag).mono (Q := fun o => R = .der ∧ Full o) fun _ h => h.2
    simp only [headers]
    cases R with
    | ber => simp only [Schema.runT] at hr this ⊢; exact this i r hr
    | der => simp only [Schema.runT] at hr this ⊢; exact this i r hr
theorem runAllT_least (D : Deps) (hD : TimesKnown D) (R : Rules) : ∀ ss : List Schema,
    Least (Schema.runAllT D R ss) (headersAll ss) fun l => R = .der ∧ FullL l
  | [] => by
    intro i r hr
    simp only [Schema.runAllT] at hr ⊢
    cases hr
    simp [headersAll, tick_free_snd]
  | s :: ss => by
    intro i r hr
    simp only [Schema.runAllT] at hr ⊢
    obtain ⟨a, h1, h2, h3⟩ := Tick.bind_ok hr
    obtain ⟨b, h4, h5, h6⟩ := Tick.bind_ok h2
    rw [tick_free_fst, Outcome.ok.injEq] at h5
    subst h5
    obtain ⟨a1, a2⟩ := runT_least D hD R s i a h1
    obtain ⟨b1, b2⟩ := runAllT_least D hD R ss a.1 b h4
    rw [h3, h6, tick_free_snd]
    simp only [headersAll, FullL]
    refine ⟨by omega, fun hP => ?_⟩
    rw [a2 ⟨hP.1, hP.2.1⟩, b2 ⟨hP.1, hP.2.2⟩]
    omega
end

/-! ## Theorems -/

/-- C140: a composed parser that succeeds reads at least one header for each object of the result, for each
alternative that did not fit, for each absent element, and at the end of each list; with DER exactly these,
if no element is absent and no length in the result is indefinite. -/
theorem C140_success (D : Deps) (hD : TimesKnown D) (R : Rules) (s : Schema) (i rem : Bytes) (o : BerObject)
    (h : s.run D R i = .ok (rem, o)) :
    headers s o ≤ (s.runT D R i).2 ∧ (R = .der → Full o → (s.runT D R i).2 = headers s o) := by
  have := runT_least D hD R s i (rem, o) (by rw [runT_fst]; exact h)
  exact ⟨this.1, fun hR hF => this.2 ⟨hR, hF⟩⟩

/-- C140: no call is free, whether it succeeds or not. -/
theorem C140_every_call (D : Deps) (R : Rules) (s : Schema) (i : Bytes) : 1 ≤ (s.runT D R i).2 := runT_one D R s i

/-- C140: on an empty input exactly one header read is made, which fails. -/
theorem C140_empty (D : Deps) (R : Rules) (s : Schema) : (s.runT D R []).2 = 1 := runT_empty D R s

/-- The result of the example is full: a list of an INTEGER, a BOOLEAN and a NULL. -/
example : ∃ o, (Schema.sequenceOf (.choice 2 [1, 5])).run Tests.D0 .der
      [0x30, 0x08, 0x02, 0x01, 0x05, 0x01, 0x01, 0xff, 0x05, 0x00] = .ok ([], o) ∧ Full o ∧
    headers (.sequenceOf (.choice 2 [1, 5])) o = 8 ∧
    ((Schema.sequenceOf (.choice 2 [1, 5])).runT Tests.D0 .der
      [0x30, 0x08, 0x02, 0x01, 0x05, 0x01, 0x01, 0xff, 0x05, 0x00]).2 = 8 :=
  ⟨_, rfl, by simp [Full, FullC, FullL, BerObject.fromSeq, BerObject.fromObj, Header.new], rfl, rfl⟩

/-- With BER there can be more: the headers inside a SEQUENCE of indefinite length are read when its end is
looked for, and again for the components. -/
example : ∃ o, (Schema.sequence [.typed 5]).run Tests.D0 .ber [0x30, 0x80, 0x05, 0x00, 0x00, 0x00] = .ok ([], o) ∧
    headers (.sequence [.typed 5]) o = 2 ∧
    ((Schema.sequence [.typed 5]).runT Tests.D0 .ber [0x30, 0x80, 0x05, 0x00, 0x00, 0x00]).2 = 4 :=
  ⟨_, rfl, rfl, rfl⟩

/-- Tags and optional elements. -/
example : ∃ o, (Schema.sequence [.explicitOptional 0 (.typed 2), .optional (.typed 1), .implicit 1 4]).run Tests.D0 .der
      [0x30, 0x09, 0xa0, 0x03, 0x02, 0x01, 0x05, 0x81, 0x02, 0x41, 0x42] = .ok ([], o) ∧
    headers (.sequence [.explicitOptional 0 (.typed 2), .optional (.typed 1), .implicit 1 4]) o = 5 ∧
    ((Schema.sequence [.explicitOptional 0 (.typed 2), .optional (.typed 1), .implicit 1 4]).runT Tests.D0 .der
      [0x30, 0x09, 0xa0, 0x03, 0x02, 0x01, 0x05, 0x81, 0x02, 0x41, 0x42]).2 = 5 :=
  ⟨_, rfl, rfl, rfl⟩

/-- The date library of the examples meets the hypothesis of `C140_success`. -/
example : TimesKnown Tests.D0 := fun _ _ _ => ⟨nofun, nofun⟩

end Verif
