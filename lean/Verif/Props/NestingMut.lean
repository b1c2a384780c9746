import Verif.NestingMut
import Verif.Props.Edit
import Verif.Props.Limits
/-!
# Mutable visitors: when they end, and how deep they are nested: C141
-/
namespace Verif
open Outcome Spec

namespace Spec

/-- The object after `visit_ber_mut` and the callback of its type, before its children are visited. -/
def touched {σ : Type} (v : MutVisitor σ) (o : BerObject) (d : Nat) (s : σ) : BerObject :=
  let r := v.visitBer o d s
  .mk r.2.header (writeBack r.2.content (v.callback (cbName r.2.content) r.2.content d r.1).2)

/-- The state of the visitor at that moment. -/
def touchedState {σ : Type} (v : MutVisitor σ) (o : BerObject) (d : Nat) (s : σ) : σ :=
  let r := v.visitBer o d s
  (v.callback (cbName r.2.content) r.2.content d r.1).1

/-- From level `k` on the visitor makes no object deeper. -/
def KeepsDepth {σ : Type} (v : MutVisitor σ) (k : Nat) : Prop :=
  ∀ o d s, k ≤ d → depth (touched v o d s) ≤ depth o

end Spec

section
variable {σ : Type}

/-! ## Results -/

theorem deep_bind_fst {ε α β : Type} (x : Deep ε α) (f : α → Deep ε β) :
    (x.bind f).1 = x.1 >>? fun a => (f a).1 := by
  obtain ⟨x, n⟩ := x
  cases x <;> rfl

theorem visitMutListN_fst {f : BerObject → σ → Deep Empty (σ × BerObject)}
    {g : BerObject → σ → Outcome Empty (σ × BerObject)} (h : ∀ o s, (f o s).1 = g o s) :
    ∀ l s, (visitMutListN f l s).1 = visitMutList g l s
  | [], s => rfl
  | o :: os, s => by
    rw [visitMutListN, visitMutList, deep_bind_fst, h]
    congr 1
    funext r
    rw [deep_bind_fst, visitMutListN_fst h os]
    rfl

theorem visitMutObjN_fst (v : MutVisitor σ) (fuel : Nat) (o : BerObject) (d : Nat) (s : σ) :
    (visitMutObjN v fuel o d s).1 = visitMutObj v fuel o d s := by
  induction fuel generalizing o d s with
  | zero => rfl
  | succ fuel ih =>
    rw [visitMutObjN, visitMutObj]
    have hl := fun l s => visitMutListN_fst (fun o s => ih o (d + 1) s) l s
    generalize v.visitBer o d s = r
    generalize v.callback (cbName r.2.content) r.2.content d r.1 = q
    generalize writeBack r.2.content q.2 = c
    simp only [Deep.call]
    cases c with
    | sequence l => simp only [deep_bind_fst, hl]; rfl
    | set l => simp only [deep_bind_fst, hl]; rfl
    | _ => rfl

/-! ## Nesting -/

theorem deep_bind_ok {ε α β : Type} {x : Deep ε α} {f : α → Deep ε β} {b : β} (h : (x.bind f).1 = .ok b) :
    ∃ a, x.1 = .ok a ∧ (f a).1 = .ok b ∧ (x.bind f).2 = max x.2 (f a).2 := by
  obtain ⟨x, n⟩ := x
  cases x with
  | ok a => exact ⟨a, rfl, h, rfl⟩
  | err e => cases h
  | panic => cases h
  | diverge => cases h

theorem visitMutListN_ok {f : BerObject → σ → Deep Empty (σ × BerObject)}
    (h : ∀ o s r, (f o s).1 = .ok r → (f o s).2 = depth r.2) :
    ∀ l s r, (visitMutListN f l s).1 = .ok r → (visitMutListN f l s).2 = listDepth r.2
  | [], s, r, hr => by cases hr; rfl
  | o :: os, s, r, hr => by
    rw [visitMutListN] at hr ⊢
    obtain ⟨a, h1, h2, h3⟩ := deep_bind_ok hr
    obtain ⟨b, h4, h5, h6⟩ := deep_bind_ok h2
    cases h5
    rw [h3, h6, h _ _ _ h1, visitMutListN_ok h os _ _ h4]
    simp [Deep.flat, listDepth]

theorem visitMutObjN_ok (v : MutVisitor σ) (fuel : Nat) (o : BerObject) (d : Nat) (s : σ) (r : σ × BerObject)
    (h : (visitMutObjN v fuel o d s).1 = .ok r) : (visitMutObjN v fuel o d s).2 = depth r.2 := by
  induction fuel generalizing o d s r with
  | zero => cases h
  | succ fuel ih =>
    rw [visitMutObjN] at h ⊢
    generalize v.visitBer o d s = r1 at h ⊢
    generalize v.callback (cbName r1.2.content) r1.2.content d r1.1 = q at h ⊢
    generalize writeBack r1.2.content q.2 = c at h ⊢
    simp only [Deep.call] at h ⊢
    cases c with
    | sequence l =>
      obtain ⟨t, h1, h2, h3⟩ := deep_bind_ok h
      cases h2
      dsimp only at h3 ⊢
      rw [h3, visitMutListN_ok (fun o s r => ih o (d + 1) s r) l _ _ h1]
      simp [Deep.flat, depth, contentDepth]
    | set l =>
      obtain ⟨t, h1, h2, h3⟩ := deep_bind_ok h
      cases h2
      dsimp only at h3 ⊢
      rw [h3, visitMutListN_ok (fun o s r => ih o (d + 1) s r) l _ _ h1]
      simp [Deep.flat, depth, contentDepth]
    | _ => cases h; rfl

theorem visitMutListN_le {f : BerObject → σ → Deep Empty (σ × BerObject)} {n : Nat}
    (h : ∀ o s, (f o s).2 ≤ n) : ∀ l s, (visitMutListN f l s).2 ≤ n
  | [], s => Nat.zero_le _
  | o :: os, s => by
    rw [visitMutListN]
    have h1 := h o s
    have h2 := fun s => visitMutListN_le h os s
    generalize f o s = x at h1 ⊢
    obtain ⟨x, k⟩ := x
    cases x with
    | ok a =>
      have := h2 a.1
      generalize hy : visitMutListN f os a.1 = y at this
      obtain ⟨y, j⟩ := y
      simp only [Deep.bind, hy]
      cases y <;> simp only [Deep.flat] <;> simp only at h1 this ⊢ <;> omega
    | err e => exact h1
    | panic => exact h1
    | diverge => exact h1

theorem visitMutObjN_le (v : MutVisitor σ) (fuel : Nat) (o : BerObject) (d : Nat) (s : σ) :
    (visitMutObjN v fuel o d s).2 ≤ fuel := by
  induction fuel generalizing o d s with
  | zero => exact Nat.le_refl _
  | succ fuel ih =>
    rw [visitMutObjN]
    have hl := fun l s => visitMutListN_le (fun o s => ih o (d + 1) s) l s
    generalize v.visitBer o d s = r1
    generalize v.callback (cbName r1.2.content) r1.2.content d r1.1 = q
    generalize writeBack r1.2.content q.2 = c
    simp only [Deep.call]
    have key : ∀ l (g : σ × List BerObject → BerObject),
        ((visitMutListN (fun o s => visitMutObjN v fuel o (d + 1) s) l q.1).bind fun t =>
          Deep.flat (ε := Empty) (.ok (t.1, g t))).2 + 1 ≤ fuel + 1 := by
      intro l g
      have := hl l q.1
      generalize visitMutListN (fun o s => visitMutObjN v fuel o (d + 1) s) l q.1 = x at this ⊢
      obtain ⟨x, k⟩ := x
      cases x <;> simp only [Deep.bind, Deep.flat] <;> simp only at this ⊢ <;> omega
    cases c with
    | sequence l => exact key l _
    | set l => exact key l _
    | _ => simp [Deep.flat]

theorem visitMutListN_diverge {f : BerObject → σ → Deep Empty (σ × BerObject)} {n : Nat}
    (h : ∀ o s, (f o s).1 = .diverge → n ≤ (f o s).2) :
    ∀ l s, (visitMutListN f l s).1 = .diverge → n ≤ (visitMutListN f l s).2
  | [], s, hd => by cases hd
  | o :: os, s, hd => by
    rw [visitMutListN] at hd ⊢
    have h1 := h o s
    generalize f o s = x at h1 hd ⊢
    obtain ⟨x, k⟩ := x
    cases x with
    | ok a =>
      have h2 := visitMutListN_diverge h os a.1
      simp only [Deep.bind] at hd ⊢
      generalize visitMutListN f os a.1 = y at h2 hd ⊢
      obtain ⟨y, j⟩ := y
      cases y with
      | ok b => cases hd
      | err e => cases hd
      | panic => cases hd
      | diverge =>
        have := h2 rfl
        dsimp only at this ⊢
        omega
    | err e => cases hd
    | panic => cases hd
    | diverge => exact h1 rfl

theorem visitMutObjN_diverge (v : MutVisitor σ) (fuel : Nat) (o : BerObject) (d : Nat) (s : σ)
    (h : (visitMutObjN v fuel o d s).1 = .diverge) : fuel ≤ (visitMutObjN v fuel o d s).2 := by
  induction fuel generalizing o d s with
  | zero => exact Nat.zero_le _
  | succ fuel ih =>
    rw [visitMutObjN] at h ⊢
    have hl := fun l s => visitMutListN_diverge (fun o s => ih o (d + 1) s) l s
    generalize v.visitBer o d s = r1 at h ⊢
    generalize v.callback (cbName r1.2.content) r1.2.content d r1.1 = q at h ⊢
    generalize writeBack r1.2.content q.2 = c at h ⊢
    simp only [Deep.call] at h ⊢
    have key : ∀ l (g : σ × List BerObject → BerObject),
        ((visitMutListN (fun o s => visitMutObjN v fuel o (d + 1) s) l q.1).bind fun t =>
          Deep.flat (ε := Empty) (.ok (t.1, g t))).1 = .diverge →
        fuel + 1 ≤ ((visitMutListN (fun o s => visitMutObjN v fuel o (d + 1) s) l q.1).bind fun t =>
          Deep.flat (ε := Empty) (.ok (t.1, g t))).2 + 1 := by
      intro l g hd
      have := hl l q.1
      generalize visitMutListN (fun o s => visitMutObjN v fuel o (d + 1) s) l q.1 = x at this hd ⊢
      obtain ⟨x, k⟩ := x
      cases x with
      | ok a => cases hd
      | err e => cases hd
      | panic => cases hd
      | diverge =>
        have := this rfl
        dsimp only [Deep.bind] at this ⊢
        omega
    cases c with
    | sequence l => exact key l _ h
    | set l => exact key l _ h
    | _ => cases h

theorem visitMutList_no_panic {f : BerObject → σ → Outcome Empty (σ × BerObject)} (h : ∀ o s, f o s ≠ .panic) :
    ∀ l s, visitMutList f l s ≠ .panic
  | [], s => nofun
  | o :: os, s => by
    rw [visitMutList]
    have h1 := h o s
    cases hx : f o s with
    | ok a =>
      have h2 := visitMutList_no_panic h os a.1
      rw [ok_bind]
      cases hy : visitMutList f os a.1 with
      | ok b => nofun
      | err e => nofun
      | panic => exact absurd hy h2
      | diverge => nofun
    | err e => nofun
    | panic => exact absurd hx h1
    | diverge => nofun

theorem visitMutObj_no_panic (v : MutVisitor σ) (fuel : Nat) (o : BerObject) (d : Nat) (s : σ) :
    visitMutObj v fuel o d s ≠ .panic := by
  induction fuel generalizing o d s with
  | zero => nofun
  | succ fuel ih =>
    rw [visitMutObj]
    have hl := fun l s => visitMutList_no_panic (fun o s => ih o (d + 1) s) l s
    generalize v.visitBer o d s = r1
    generalize v.callback (cbName r1.2.content) r1.2.content d r1.1 = q
    generalize writeBack r1.2.content q.2 = c
    have key : ∀ l (g : σ × List BerObject → BerObject),
        (visitMutList (fun o s => visitMutObj v fuel o (d + 1) s) l q.1 >>? fun t =>
          (.ok (t.1, g t) : Outcome Empty (σ × BerObject))) ≠ .panic := by
      intro l g
      have := hl l q.1
      cases hx : visitMutList (fun o s => visitMutObj v fuel o (d + 1) s) l q.1 with
      | ok b => nofun
      | err e => nofun
      | panic => exact absurd hx this
      | diverge => nofun
    cases c with
    | sequence l => exact key l _
    | set l => exact key l _
    | _ => nofun

/-! ## Ending -/

theorem visitMutObj_touched (v : MutVisitor σ) (fuel : Nat) (o : BerObject) (d : Nat) (s : σ) :
    visitMutObj v (fuel + 1) o d s =
      match (touched v o d s).content with
      | .sequence l =>
        visitMutList (fun o s => visitMutObj v fuel o (d + 1) s) l
          (touchedState v o d s) >>?
        fun t => .ok (t.1, .mk (touched v o d s).header (.sequence t.2))
      | .set l =>
        visitMutList (fun o s => visitMutObj v fuel o (d + 1) s) l
          (touchedState v o d s) >>?
        fun t => .ok (t.1, .mk (touched v o d s).header (.set t.2))
      | _ => .ok (touchedState v o d s, touched v o d s) := by
  rw [visitMutObj, touched, touchedState]
  simp only [BerObject.content, BerObject.header]
  split <;> simp_all

theorem visitMutList_ends {f : BerObject → σ → Outcome Empty (σ × BerObject)} {n : Nat} :
    ∀ (l : List BerObject), (∀ o ∈ l, ∀ s, ∃ r, f o s = .ok r ∧ depth r.2 ≤ n) →
    ∀ s, ∃ r, visitMutList f l s = .ok r ∧ listDepth r.2 ≤ n
  | [], _, s => ⟨(s, []), rfl, Nat.zero_le _⟩
  | o :: os, h, s => by
    obtain ⟨r, h1, h2⟩ := h o (by simp) s
    obtain ⟨q, h3, h4⟩ := visitMutList_ends os (fun o ho => h o (by simp [ho])) r.1
    refine ⟨(q.1, r.2 :: q.2), ?_, ?_⟩
    · rw [visitMutList, h1]
      show visitMutList f os r.1 >>? _ = _
      rw [h3]
      rfl
    · rw [listDepth]
      omega

theorem listDepth_mem {l : List BerObject} {o : BerObject} (h : o ∈ l) : depth o ≤ listDepth l := by
  induction l with
  | nil => cases h
  | cons a as ih =>
    rw [listDepth]
    rcases List.mem_cons.1 h with rfl | h
    · omega
    · have := ih h
      omega

theorem depth_pos' (o : BerObject) : 1 ≤ depth o := by
  obtain ⟨h, c⟩ := o
  cases c <;> simp [depth, contentDepth]

/-- Below the level where the visitor stops to deepen objects, as many levels are visited as there are. -/
theorem visitMutObj_keeps {v : MutVisitor σ} {k : Nat} (hk : KeepsDepth v k) (fuel : Nat) (o : BerObject) (d : Nat)
    (s : σ) (hd : k ≤ d) (hf : depth o ≤ fuel) :
    ∃ r, visitMutObj v fuel o d s = .ok r ∧ depth r.2 ≤ depth o := by
  induction fuel generalizing o d s with
  | zero => have := depth_pos' o; omega
  | succ fuel ih =>
    rw [visitMutObj_touched]
    have hq := hk o d s hd
    generalize touched v o d s = t at hq
    obtain ⟨h, c⟩ := t
    simp only [BerObject.content, BerObject.header]
    have key : ∀ l : List BerObject, listDepth l + 1 ≤ depth o → ∀ s : σ,
        ∃ r, visitMutList (fun o s => visitMutObj v fuel o (d + 1) s) l s = .ok r ∧
          listDepth r.2 ≤ listDepth l := by
      intro l hl s
      refine visitMutList_ends l (fun a ha s => ?_) s
      have := listDepth_mem ha
      obtain ⟨r, h1, h2⟩ := ih a (d + 1) s (by omega) (by omega)
      exact ⟨r, h1, by omega⟩
    cases c with
    | sequence l =>
      rw [depth, contentDepth] at hq
      obtain ⟨r, h1, h2⟩ := key l hq
        (touchedState v o d s)
      dsimp only
      rw [h1]
      exact ⟨_, rfl, by rw [depth, contentDepth]; omega⟩
    | set l =>
      rw [depth, contentDepth] at hq
      obtain ⟨r, h1, h2⟩ := key l hq
        (touchedState v o d s)
      dsimp only
      rw [h1]
      exact ⟨_, rfl, by rw [depth, contentDepth]; omega⟩
    | _ => exact ⟨_, rfl, hq⟩

theorem visitMutObj_more {v : MutVisitor σ} {m n : Nat} {o : BerObject} {d : Nat} {s : σ} {r : σ × BerObject}
    (h : visitMutObj v m o d s = .ok r) (hmn : m ≤ n) : visitMutObj v n o d s = .ok r := by
  have := C80_fuel v m (n - m) o d s r h
  rwa [show m + (n - m) = n by omega] at this

theorem visitMutList_ends_fuel {v : MutVisitor σ} {d : Nat}
    (h : ∀ o s, ∃ fuel r, visitMutObj v fuel o d s = .ok r) :
    ∀ (l : List BerObject) (s : σ), ∃ fuel r, visitMutList (fun o s => visitMutObj v fuel o d s) l s = .ok r
  | [], s => ⟨0, _, rfl⟩
  | o :: os, s => by
    obtain ⟨m, r, h1⟩ := h o s
    obtain ⟨n, q, h2⟩ := visitMutList_ends_fuel h os r.1
    refine ⟨max m n, (q.1, r.2 :: q.2), ?_⟩
    rw [visitMutList, visitMutObj_more h1 (Nat.le_max_left m n), ok_bind,
      visitMutList_fuel (fun o s r hr => visitMutObj_more hr (Nat.le_max_right m n)) os _ _ h2]
    rfl

theorem visitMutObj_ends {v : MutVisitor σ} {k : Nat} (hk : KeepsDepth v k) :
    ∀ (n : Nat) (o : BerObject) (d : Nat) (s : σ), k ≤ d + n → ∃ fuel r, visitMutObj v fuel o d s = .ok r
  | 0, o, d, s, hd => by
    obtain ⟨r, h, -⟩ := visitMutObj_keeps hk (depth o) o d s hd (Nat.le_refl _)
    exact ⟨_, r, h⟩
  | n + 1, o, d, s, hd => by
    have ih := fun o s => visitMutObj_ends hk n o (d + 1) s (by omega)
    have key := visitMutList_ends_fuel ih
    cases hc : (touched v o d s).content with
    | sequence l =>
      obtain ⟨fuel, r, h⟩ := key l
        (touchedState v o d s)
      refine ⟨fuel + 1, (r.1, .mk (touched v o d s).header (.sequence r.2)), ?_⟩
      rw [visitMutObj_touched, hc]
      dsimp only
      rw [h]
      rfl
    | set l =>
      obtain ⟨fuel, r, h⟩ := key l
        (touchedState v o d s)
      refine ⟨fuel + 1, (r.1, .mk (touched v o d s).header (.set r.2)), ?_⟩
      rw [visitMutObj_touched, hc]
      dsimp only
      rw [h]
      rfl
    | _ => exact ⟨1, _, by rw [visitMutObj_touched, hc]⟩

theorem keepsDepth_values {v : MutVisitor σ} (hv : v.EditsValues) : KeepsDepth v 0 := by
  rintro ⟨h, c⟩ d s -
  rw [touched]
  simp only [hv.ber, BerObject.content, BerObject.header]
  cases c with
  | sequence l => rw [hv.sequence]; exact Nat.le_refl _
  | set l => rw [hv.set]; exact Nat.le_refl _
  | _ =>
    rw [depth, depth]
    generalize hx : (v.callback _ _ d _).2 = c'
    cases c' <;> simp only [writeBack, contentDepth, Nat.le_refl] <;> (try split) <;> simp only [contentDepth, Nat.le_refl]

theorem contentDepth_variant {c c' : Content} (hc : Flat c) (h : variant c' = variant c) :
    contentDepth c' = contentDepth c := by
  have e : ∀ c : Content, variant c ≠ 18 → variant c ≠ 19 → contentDepth c = 1 := by
    intro c h1 h2
    cases c <;> first | rfl | exact absurd rfl h1 | exact absurd rfl h2
  have h1 : variant c ≠ 18 ∧ variant c ≠ 19 := by
    cases c with
    | str k s => cases k <;> exact ⟨by simp [variant], by simp [variant]⟩
    | sequence l => exact absurd hc (by simp [Flat])
    | set l => exact absurd hc (by simp [Flat])
    | _ => exact ⟨by simp [variant], by simp [variant]⟩
  rw [e c h1.1 h1.2, e c' (by rw [h]; exact h1.1) (by rw [h]; exact h1.2)]

theorem listDepth_pairs : ∀ ps : List (BerObject × BerObject), (∀ p ∈ ps, depth p.2 = depth p.1) →
    listDepth (ps.map Prod.snd) = listDepth (ps.map Prod.fst)
  | [], _ => rfl
  | p :: ps, h => by
    simp only [List.map_cons, listDepth]
    rw [h p (by simp), listDepth_pairs ps fun q hq => h q (by simp [hq])]

theorem edited_depth {o o' : BerObject} (h : Edited o o') : depth o' = depth o := by
  induction h with
  | flat h c c' hc hv _ => exact contentDepth_variant hc hv
  | sequence h ps _ ih => simp only [depth, contentDepth]; rw [listDepth_pairs ps ih]
  | set h ps _ ih => simp only [depth, contentDepth]; rw [listDepth_pairs ps ih]

end

/-! ## Theorems -/

/-- C141: the counted traversal is the traversal. -/
theorem C141_same_results {σ : Type} (v : MutVisitor σ) (fuel : Nat) (o : BerObject) (d : Nat) (s : σ) :
    (visitMutObjN v fuel o d s).1 = visitMutObj v fuel o d s := visitMutObjN_fst v fuel o d s

/-- C141: a traversal that ends was nested as deep as the object it leaves behind, whatever the visitor did. -/
theorem C141_nesting {σ : Type} (v : MutVisitor σ) (fuel : Nat) (o o' : BerObject) (d : Nat) (s s' : σ)
    (h : visitMutObj v fuel o d s = .ok (s', o')) : (visitMutObjN v fuel o d s).2 = depth o' :=
  visitMutObjN_ok v fuel o d s (s', o') (by rw [visitMutObjN_fst]; exact h)

/-- C141: a visitor that makes no object deeper ends, leaves an object that is not deeper, and is nested no deeper
than the object it is given. -/
theorem C141_no_deeper {σ : Type} (v : MutVisitor σ) (hv : KeepsDepth v 0) (o : BerObject) (d : Nat) (s : σ) :
    ∃ s' o', visitMutObj v (depth o) o d s = .ok (s', o') ∧ depth o' ≤ depth o ∧
      (visitMutObjN v (depth o) o d s).2 = depth o' := by
  obtain ⟨⟨s', o'⟩, h1, h2⟩ := visitMutObj_keeps hv (depth o) o d s (Nat.zero_le d) (Nat.le_refl _)
  exact ⟨s', o', h1, h2, C141_nesting v _ o o' d s s' h1⟩

/-- C141: the traversal ends if from some level on the visitor makes no object deeper, whatever it does above. -/
theorem C141_ends {σ : Type} (v : MutVisitor σ) (k : Nat) (hv : KeepsDepth v k) (o : BerObject) (d : Nat) (s : σ) :
    ∃ fuel s' o', visitMutObj v fuel o d s = .ok (s', o') := by
  obtain ⟨fuel, r, h⟩ := visitMutObj_ends hv k o d s (by omega)
  exact ⟨fuel, r.1, r.2, h⟩

/-- C141: a traversal that does not end has any number of activations open at some time: it is no endless loop, the
stack is used up. -/
theorem C141_endless {σ : Type} (v : MutVisitor σ) (o : BerObject) (d : Nat) (s : σ)
    (h : ∀ fuel r, visitMutObj v fuel o d s ≠ .ok r) (n : Nat) : (visitMutObjN v n o d s).2 = n := by
  refine Nat.le_antisymm (visitMutObjN_le v n o d s) (visitMutObjN_diverge v n o d s ?_)
  rw [visitMutObjN_fst]
  have := h n
  cases hx : visitMutObj v n o d s with
  | ok r => exact absurd hx (this r)
  | err e => exact e.elim
  | panic => exact absurd hx (visitMutObj_no_panic v n o d s)
  | diverge => rfl

/-- C141: a visitor that edits values and keeps the lists ends, and is nested as deep as the object it is given. -/
theorem C141_values {σ : Type} (v : MutVisitor σ) (hv : v.EditsValues) (o : BerObject) (d : Nat) (s : σ) :
    ∃ s' o', visitMutObj v (depth o) o d s = .ok (s', o') ∧ depth o' = depth o ∧
      (visitMutObjN v (depth o) o d s).2 = depth o := by
  obtain ⟨s', o', h1, -, h3⟩ := C141_no_deeper v (keepsDepth_values hv) o d s
  have := edited_depth (C80_values_only v hv _ _ _ _ _ _ h1)
  exact ⟨s', o', h1, this, by rw [h3, this]⟩

/-- C141: on an object that a parser with recursion limit `n` returned, such a visitor has at most `n` activations
open at one time. -/
theorem C141_parsed {σ : Type} (v : MutVisitor σ) (hv : KeepsDepth v 0) (D : Deps) (n : Nat) (i rem : Bytes)
    (o : BerObject) (h : parseBerRecursive D n i = .ok (rem, o)) (d : Nat) (s : σ) :
    ∃ s' o', visitMutObj v n o d s = .ok (s', o') ∧ depth o' ≤ n ∧ (visitMutObjN v n o d s).2 ≤ n := by
  have hd := (C13_depth_exact D n i rem o h).1
  obtain ⟨s', o', h1, h2, -⟩ := C141_no_deeper v hv o d s
  have h3 := visitMutObj_more h1 hd
  exact ⟨s', o', h3, by omega, by rw [C141_nesting v n o o' d s s' h3]; omega⟩

private theorem derUnknown_depth {n : Nat} {j : Bytes} {hdr : Header} {r : Bytes × BerObject}
    (h : derUnknown j hdr n = .ok r) : depth r.2 = 1 := by
  unfold derUnknown at h
  obtain ⟨s, -, h2⟩ := bind_eq_ok.1 h
  cases h2
  rfl

private theorem derBits_depth {j : Bytes} {l : Nat} {r : Bytes × Content}
    (h : derReadContentBitstring j l = .ok r) : contentDepth r.2 = 1 := by
  unfold derReadContentBitstring at h
  split at h
  · cases h
  split at h
  · cases h
  split at h
  · cases h
  obtain ⟨q, -, h2⟩ := bind_eq_ok.1 h
  split at h2
  · split at h2
    · cases h2
    · split at h2
      · cases h2; rfl
      · cases h2
  · cases h2; rfl

private theorem readGo_depth {D : Deps} {n t : Nat} {l : Length} {c : Bool} {j : Bytes} {r : Bytes × Content}
    (h : readContentGo D t l c n j = .ok r) : contentDepth r.2 ≤ n := by
  unfold readContentGo at h
  obtain ⟨s, -, h2⟩ := bind_eq_ok.1 h
  obtain ⟨⟨oh, oc⟩, h3, h4⟩ := bind_eq_ok.1 h2
  rw [liftRes_eq_ok] at h3
  cases h4
  have hd := objectFromAny_depth D h3 n
  rw [h3] at hd
  by_cases hk : depth (.mk oh oc) ≤ n
  · exact hk
  · rw [if_neg hk] at hd; simp at hd

private theorem derAs_depth {D : Deps} {n t : Nat} {l : Length} {c : Bool} {j : Bytes} {r : Bytes × Content}
    (h : derReadElementContentAs D j t l c n = .ok r) : contentDepth r.2 ≤ max 1 n := by
  unfold derReadElementContentAs at h
  obtain ⟨m, -, h2⟩ := bind_eq_ok.1 h
  split at h2
  · cases h2
  split at h2
  · split at h2
    · cases h2
    · have := derBits_depth h2; omega
  · obtain ⟨u, -, h4⟩ := bind_eq_ok.1 h2
    rw [berReadElementContentAs_eq] at h4
    have key : readContentGo D t l c n j = .ok r := by
      cases l with
      | definite k =>
        simp only at h4
        split at h4
        · cases h4
        · split at h4
          · cases h4
          · exact h4
      | indefinite => exact h4
    have := readGo_depth key
    omega

private theorem derRec_depth {D : Deps} {n : Nat} {hdr : Header} {j : Bytes} {r : Bytes × BerObject}
    (h : derReadElementContentRecursive D j hdr n = .ok r) : depth r.2 ≤ max 1 n := by
  unfold derReadElementContentRecursive at h
  split at h
  · have := derUnknown_depth h; omega
  · split at h
    · rename_i q hq
      cases h
      exact derAs_depth hq
    · have := derUnknown_depth h; omega
    all_goals cases h

private theorem derParsed_depth {D : Deps} {n : Nat} {i rem : Bytes} {o : BerObject}
    (h : parseDerRecursive D n i = .ok (rem, o)) : depth o ≤ max 1 n := by
  unfold parseDerRecursive at h
  obtain ⟨q, -, h2⟩ := bind_eq_ok.1 h
  split at h2
  · split at h2
    · cases h2
    · exact derRec_depth h2
  · exact derRec_depth h2

/-- C141: on an object that `parse_der_recursive` with recursion limit `n` returned, such a visitor has at most `n`
activations open at one time, and one if `n` is 0. -/
theorem C141_parsed_der {σ : Type} (v : MutVisitor σ) (hv : KeepsDepth v 0) (D : Deps) (n : Nat) (i rem : Bytes)
    (o : BerObject) (h : parseDerRecursive D n i = .ok (rem, o)) (d : Nat) (s : σ) :
    ∃ s' o', visitMutObj v (max 1 n) o d s = .ok (s', o') ∧ depth o' ≤ max 1 n ∧
      (visitMutObjN v (max 1 n) o d s).2 ≤ max 1 n := by
  have hd := derParsed_depth h
  obtain ⟨s', o', h1, h2, -⟩ := C141_no_deeper v hv o d s
  have h3 := visitMutObj_more h1 hd
  exact ⟨s', o', h3, by omega, by rw [C141_nesting v _ o o' d s s' h3]; omega⟩

private theorem content_zero (h : Header) (j : Bytes) : getObjectContent 0 h j = .err (.error .berMaxDepth) := by
  simp [getObjectContent, skipContent]

private theorem derBits_bits {j : Bytes} {l : Nat} {r : Bytes × Content}
    (h : derReadContentBitstring j l = .ok r) : ∃ u b, r.2 = .bitString u b := by
  unfold derReadContentBitstring at h
  split at h
  · cases h
  split at h
  · cases h
  split at h
  · cases h
  obtain ⟨q, -, h2⟩ := bind_eq_ok.1 h
  split at h2
  · split at h2
    · cases h2
    · split at h2
      · cases h2; exact ⟨_, _, rfl⟩
      · cases h2
  · cases h2; exact ⟨_, _, rfl⟩

private theorem derAs_zero {D : Deps} {t : Nat} {l : Length} {c : Bool} {j : Bytes} {r : Bytes × Content}
    (h : derReadElementContentAs D j t l c 0 = .ok r) : ∃ u b, r.2 = .bitString u b := by
  unfold derReadElementContentAs at h
  obtain ⟨m, -, h2⟩ := bind_eq_ok.1 h
  split at h2
  · cases h2
  split at h2
  · split at h2
    · cases h2
    · exact derBits_bits h2
  · obtain ⟨u, -, h4⟩ := bind_eq_ok.1 h2
    rw [berReadElementContentAs_eq] at h4
    exfalso
    have go : readContentGo D t l c 0 j ≠ .ok r := by
      unfold readContentGo
      rw [content_zero]
      simp
    cases l with
    | definite k =>
      simp only at h4
      split at h4
      · cases h4
      · split at h4
        · cases h4
        · exact go h4
    | indefinite => exact go h4

/-- C141: the limit 0 does not keep `parse_der_recursive` from returning a BIT STRING, which is one level deep, but
nothing else is returned; `parse_ber_recursive` returns nothing at all. -/
theorem C141_der_limit_zero (D : Deps) :
    (∃ o, parseDerRecursive D 0 [0x03, 0x02, 0x00, 0xff] = .ok ([], o) ∧ depth o = 1) ∧
    (∀ i rem o, parseDerRecursive D 0 i = .ok (rem, o) → ∃ u b, o.content = .bitString u b) ∧
    ∀ i, parseBerRecursive D 0 i = .err (.error .berMaxDepth) := by
  have hu : ∀ j hdr r, derUnknown j hdr 0 ≠ .ok r := by
    intro j hdr r
    unfold derUnknown
    rw [content_zero]
    simp
  have hr : ∀ j hdr r, derReadElementContentRecursive D j hdr 0 = .ok r → ∃ u b, r.2.content = .bitString u b := by
    intro j hdr r h
    unfold derReadElementContentRecursive at h
    split at h
    · exact absurd h (hu _ _ _)
    · split at h
      · rename_i q hq
        cases h
        exact derAs_zero hq
      · exact absurd h (hu _ _ _)
      all_goals cases h
  refine ⟨⟨_, rfl, rfl⟩, fun i rem o h => ?_, fun _ => rfl⟩
  unfold parseDerRecursive at h
  obtain ⟨q, -, h2⟩ := bind_eq_ok.1 h
  split at h2
  · split at h2
    · cases h2
    · exact hr _ _ _ h2
  · exact hr _ _ _ h2

/-! ## Examples -/

/-- A visitor that replaces every INTEGER by 7. -/
example : KeepsDepth Tests.setter 0 := by
  rintro ⟨h, c⟩ d s -
  cases c <;> simp [touched, Tests.setter, BerObject.content, BerObject.header, depth, contentDepth, writeBack]

/-- A visitor that puts a NULL into a SEQUENCE in place of every object above level 3, and deepens nothing below. -/
def Tests.wrapper : MutVisitor Unit where
  visitBer o d s := (s, if d < 3 then .mk (Tests.h .universal true 16 0 [0x30])
    (.sequence [.mk (Tests.h .universal false 5 0 [0x05]) .null]) else o)
  callback _ c _ s := (s, c)

example : KeepsDepth Tests.wrapper 3 := by
  rintro ⟨h, c⟩ d s hd
  have : ¬ d < 3 := by omega
  simp [touched, Tests.wrapper, this, writeBack_self, BerObject.content, BerObject.header]

/-- It makes a NULL four levels deep, and is nested as deep. -/
example : ∃ o', visitMutObj Tests.wrapper 4 (.mk (Tests.h .universal false 5 0 [0x05]) .null) 0 () = .ok ((), o') ∧
    depth o' = 4 ∧ (visitMutObjN Tests.wrapper 4 (.mk (Tests.h .universal false 5 0 [0x05]) .null) 0 ()).2 = 4 :=
  ⟨_, rfl, by decide, by decide⟩

/-- A visitor that puts a SEQUENCE into every object never ends. -/
example (h : Header) (o : BerObject) (n : Nat) := C141_endless (σ := Unit)
  ⟨fun _ _ s => (s, .mk h (.sequence [.mk h .null])), fun _ c _ s => (s, c)⟩ o 0 ()
  (fun fuel r => by rw [C54_growing_diverges]; nofun) n

end Verif
