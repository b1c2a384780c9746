import Verif.Spec
import Verif.Lemmas.Multi
/-!
# Behaviour on truncated input
-/
namespace Verif
open Outcome Spec

variable {α β : Type}

/-- Answer to an input `q` with `k` bytes missing: `Incomplete` asking for at most `k` bytes, or
`InvalidTag` when cut inside a high tag number. -/
def Short (k : Nat) (q : Bytes) (r : IRes BerError α) : Prop :=
  (∃ n, r = .err (.incomplete (.size n)) ∧ 1 ≤ n ∧ n ≤ k) ∨
    (r = .err (.error .invalidTag) ∧ CutInTag q)

/-- Truncated inputs of `p` get a `Short` answer. -/
def TruncOk (p : Bytes → IRes BerError α) : Prop :=
  ∀ pre a, Reads p pre a → ∀ q s, pre = q ++ s → s ≠ [] → Short s.length q (p q)

theorem _root_.Verif.Spec.CutInTag.prepend {q : Bytes} (h : CutInTag q) (p : Bytes) : CutInTag (p ++ q) := by
  obtain ⟨q', b, ms, rfl, h1, h2⟩ := h
  exact ⟨p ++ q', b, ms, by simp, h1, h2⟩

theorem Short.mono {k k' : Nat} {q : Bytes} {r : IRes BerError α} (h : Short k q r) (hk : k ≤ k') :
    Short k' q r := by
  rcases h with ⟨n, h1, h2, h3⟩ | h
  · exact .inl ⟨n, h1, h2, by omega⟩
  · exact .inr h

theorem Short.prepend {k : Nat} {q : Bytes} {r : IRes BerError α} (h : Short k q r) (p : Bytes) :
    Short k (p ++ q) r := by
  rcases h with h | ⟨h1, h2⟩
  · exact .inl h
  · exact .inr ⟨h1, h2.prepend p⟩

theorem Short.bind {k : Nat} {q : Bytes} {r : IRes BerError α} (h : Short k q r)
    (f : Bytes × α → IRes BerError β) : Short k q (r >>? f) := by
  rcases h with ⟨n, h1, h2, h3⟩ | ⟨h1, h2⟩
  · exact .inl ⟨n, by rw [h1]; rfl, h2, h3⟩
  · exact .inr ⟨by rw [h1]; rfl, h2⟩

/-- Splitting `q ++ s = p1 ++ p2`. -/
theorem append_split {q s p1 p2 : Bytes} (h : q ++ s = p1 ++ p2) (_ : s ≠ []) :
    (∃ s1, p1 = q ++ s1 ∧ s1 ≠ [] ∧ s = s1 ++ p2) ∨ (∃ q2, q = p1 ++ q2 ∧ p2 = q2 ++ s) := by
  rcases List.append_eq_append_iff.1 h with ⟨a, h1, h2⟩ | ⟨a, h1, h2⟩
  · by_cases ha : a = []
    · subst ha
      simp at h1 h2
      exact .inr ⟨[], by simp [h1], by simp [h2]⟩
    · exact .inl ⟨a, h1, ha, h2⟩
  · exact .inr ⟨a, h1, h2⟩

theorem TruncOk.bind {p : Bytes → IRes BerError α} {f : α → Bytes → IRes BerError β}
    (lp : Local p) (tp : TruncOk p) (tf : ∀ a, TruncOk (f a)) :
    TruncOk (fun i => p i >>? fun r => f r.2 r.1) := by
  intro pre b hr q s hq hs
  obtain ⟨⟨i1, a⟩, h1, h2⟩ := bind_eq_ok.1 hr.nil_of
  obtain ⟨p1, rfl, r1⟩ := lp _ _ _ h1
  have hf : Reads (f a) i1 b := by
    intro x
    have := hr x
    simp only [List.append_assoc, r1 (i1 ++ x), ok_bind] at this
    exact this
  rcases append_split hq.symm hs with ⟨s1, e1, hs1, rfl⟩ | ⟨q2, rfl, e2⟩
  · have := tp _ _ r1 q s1 e1 hs1
    exact (this.mono (by simp)).bind _
  · have := tf a _ _ hf q2 s e2 hs
    simp only [r1 q2, ok_bind]
    exact this.prepend p1

theorem TruncOk.of_nil {p : Bytes → IRes BerError α}
    (h : ∀ pre a, Reads p pre a → pre = []) : TruncOk p := by
  intro pre a hr q s hq hs
  have := h pre a hr
  simp [this] at hq
  exact absurd hq.2 hs

theorem TruncOk.guard {x : Outcome (NomErr BerError) α} {f : α → Bytes → IRes BerError β}
    (hf : ∀ a, x = .ok a → TruncOk (f a)) : TruncOk (fun i => x >>? fun a => f a i) := by
  intro pre b hr q s hq hs
  obtain ⟨a, h1, h2⟩ := bind_eq_ok.1 hr.nil_of
  simp only [h1, ok_bind]
  refine hf a h1 pre b ?_ q s hq hs
  intro y
  have := hr y
  simpa [h1] using this

theorem TruncOk.ok (a : α) : TruncOk (fun i => .ok (i, a)) :=
  TruncOk.of_nil fun pre b h => by have := h []; simp at this; exact this.1

theorem truncOk_takeStreaming (n : Nat) : TruncOk (takeStreaming n) := by
  intro pre a hr q s hq hs
  obtain ⟨e, h⟩ := takeStreaming_ok hr.nil_of
  simp at e
  have : q.length + s.length = n := by rw [← h, ← e, hq]; simp
  have hs' : 0 < s.length := List.length_pos_iff.2 hs
  refine .inl ⟨n - q.length, ?_, by omega, by omega⟩
  unfold takeStreaming
  rw [if_pos (by omega)]
  simp [Needed.new]; omega

theorem tagLoop_ok_shape {bs : Bytes} {count c t n : Nat} (h : tagLoop bs count c = .ok (t, n)) :
    ∃ ms last rest, bs = ms ++ last :: rest ∧ n = count + ms.length + 1 ∧
      (∀ m ∈ ms, 128 ≤ m.toNat) ∧ last.toNat < 128 ∧ count + ms.length ≤ 5 := by
  induction bs generalizing count c with
  | nil => simp [tagLoop] at h
  | cons b rest ih =>
    unfold tagLoop at h
    split at h
    · simp at h
    simp only at h
    split at h
    · simp at h
      exact ⟨[], b, rest, rfl, by simp [h.2], by simp, by omega, by simp; omega⟩
    · obtain ⟨ms, last, rest', rfl, h1, h2, h3, h4⟩ := ih h
      refine ⟨b :: ms, last, rest', rfl, by simp; omega, ?_, h3, by simp; omega⟩
      intro m hm
      rcases List.mem_cons.1 hm with rfl | hm
      · omega
      · exact h2 m hm

theorem tagLoop_short (ms : Bytes) (hm : ∀ m ∈ ms, 128 ≤ m.toNat) (count c : Nat) :
    tagLoop ms count c = .err (.error .invalidTag) := by
  induction ms generalizing count c with
  | nil => rfl
  | cons b rest ih =>
    unfold tagLoop
    split
    · rfl
    · have := hm b (by simp)
      rw [if_neg (by omega)]
      exact ih (fun m h => hm m (by simp [h])) _ _

theorem truncOk_parseIdentifier : TruncOk parseIdentifier := by
  intro pre a hr q s hq hs
  cases q with
  | nil =>
    have : 0 < s.length := List.length_pos_iff.2 hs
    exact .inl ⟨1, by simp [parseIdentifier, Needed.new], by omega, by omega⟩
  | cons b q =>
    subst hq
    have h := hr.nil_of
    simp only [List.cons_append, parseIdentifier] at h
    split at h
    · rename_i hb
      obtain ⟨⟨t, n⟩, h1, h2⟩ := bind_eq_ok.1 h
      obtain ⟨ms, last, rest, e, h3, h4, h5, h6⟩ := tagLoop_ok_shape h1
      simp only [ok.injEq, Prod.mk.injEq] at h2
      have hdrop := congrArg List.length h2.1
      rw [List.length_drop, e] at hdrop
      simp at hdrop
      have hrest : rest = [] := List.length_eq_zero_iff.1 (by omega)
      subst hrest
      have hq : ∀ m ∈ q, 128 ≤ m.toNat := by
        have e' : q ++ s = ms ++ [last] := e
        rcases append_split e' hs with ⟨s1, e1, _, _⟩ | ⟨q2, e1, e2⟩
        · intro m hm; exact h4 m (by rw [e1]; simp [hm])
        · have : q2 = [] := by
            cases q2 with
            | nil => rfl
            | cons x q2 => simp at e2; exact absurd e2.2.2 hs
          subst this
          simp at e1
          intro m hm; exact h4 m (by rw [← e1]; exact hm)
      refine .inr ⟨?_, [], b, q, rfl, hb, hq⟩
      simp [parseIdentifier, hb, tagLoop_short q hq]
    · simp at h
      exact absurd h.1.2 hs

theorem truncOk_parseLength (k : Outcome (NomErr BerError) Length) : TruncOk (parseLength k) := by
  intro pre a hr q s hq hs
  have hs' : 0 < s.length := List.length_pos_iff.2 hs
  cases q with
  | nil => exact .inl ⟨1, by simp [parseLength, Needed.new], by omega, by omega⟩
  | cons b q =>
    subst hq
    have h := hr.nil_of
    simp only [List.cons_append, parseLength] at h ⊢
    split at h
    · simp at h; exact absurd h.1.2 hs
    rename_i hb
    split at h
    · obtain ⟨_, _, h⟩ := map_eq_ok.1 h
      simp at h; exact absurd h.1.2 hs
    rename_i hl
    split at h
    · simp at h
    rename_i hl'
    obtain ⟨⟨r, ds⟩, h1, h2⟩ := bind_eq_ok.1 h
    obtain ⟨e1, e2⟩ := takeStreaming_ok h1
    have hr' : r = [] := by
      simp only at h2
      split at h2
      · simp at h2
      · simp at h2; exact h2.1
    subst hr'
    simp at e1
    have hlen : q.length + s.length = b.toNat % 128 := by rw [← e2, ← e1]; simp
    simp only [if_neg hb, if_neg hl, if_neg hl']
    refine .inl ⟨b.toNat % 128 - q.length, ?_, by omega, by omega⟩
    unfold takeStreaming
    rw [if_pos (by omega)]
    simp [Needed.new]; omega

theorem truncOk_headerWith (k : Ident → Outcome (NomErr BerError) Length) :
    TruncOk (headerWith k) :=
  TruncOk.bind
    (f := fun a i => parseLength (k a) i >>? fun s =>
      .ok (s.1, Header.mk a.cls a.constructed a.tag s.2 (some a.raw)))
    local_parseIdentifier truncOk_parseIdentifier fun a =>
    TruncOk.bind (f := fun l i => .ok (i, Header.mk a.cls a.constructed a.tag l (some a.raw)))
      (local_parseLength _) (truncOk_parseLength _) fun _ => TruncOk.ok _

theorem truncOk_headerFromBer : TruncOk headerFromBer := headerFromBer_eq ▸ truncOk_headerWith _
theorem truncOk_headerFromDer : TruncOk headerFromDer := headerFromDer_eq ▸ truncOk_headerWith _

theorem skipLoop_trunc {skip : Header → Bytes → IRes BerError Bool} (hs : ∀ h, Local (skip h))
    (ht : ∀ h, TruncOk (skip h)) {fuel0 : Nat} {pre : Bytes}
    (h : skipLoop skip fuel0 pre = .ok ([], false)) {q s : Bytes} (hq : pre = q ++ s)
    (hne : s ≠ []) {fuel : Nat} (hf : q.length < fuel) :
    Short s.length q (skipLoop skip fuel q) := by
  induction fuel0 generalizing pre q fuel with
  | zero => simp [skipLoop] at h
  | succ fuel0 ih =>
    cases fuel with
    | zero => omega
    | succ fuel =>
      unfold skipLoop at h
      obtain ⟨⟨i1, hd⟩, h1, h2⟩ := bind_eq_ok.1 h
      obtain ⟨⟨i2, eoc⟩, h3, h4⟩ := bind_eq_ok.1 h2
      have hpos := headerFromBer_pos h1
      obtain ⟨p1, rfl, r1⟩ := local_headerFromBer _ _ _ h1
      obtain ⟨p2, rfl, r2⟩ := hs _ _ _ _ h3
      unfold skipLoop
      rcases append_split hq.symm hne with ⟨s1, e1, hs1, rfl⟩ | ⟨q2, rfl, e2⟩
      · exact ((truncOk_headerFromBer _ _ r1 q s1 e1 hs1).mono (by simp)).bind _
      · rcases append_split e2.symm hne with ⟨s1, e1, hs1, rfl⟩ | ⟨q3, rfl, e3⟩
        · simp only [r1 q2, ok_bind]
          exact (((ht hd _ _ r2 q2 s1 e1 hs1).mono (by simp)).prepend p1).bind _
        · simp only [r1 (p2 ++ q3), ok_bind]
          have r2' : skip hd (p2 ++ q3) = _ := r2 q3
          simp only at h4
          rw [r2']
          simp only [ok_bind]
          split at h4
          · simp at h4
            rw [h4] at e3
            simp at e3
            exact absurd e3.2 hne
          · rename_i he
            rw [if_neg he]
            have := ih h4 e3 (fuel := fuel) (by
              simp only [List.length_append] at hf hpos; omega)
            exact (this.prepend p2).prepend p1

theorem truncOk_skipContent (d : Nat) (hdr : Header) : TruncOk (skipContent d hdr) := by
  induction d generalizing hdr with
  | zero => intro pre a hr; have := hr []; simp [skipContent] at this
  | succ d ih =>
    intro pre a hr q s hq hs
    have h := hr.nil_of
    simp only [skipContent] at h ⊢
    split at h
    · rename_i l hl
      split at h
      · simp at h
        rw [h.1] at hq; simp at hq; exact absurd hq.2 hs
      · rename_i hz
        obtain ⟨⟨i1, c⟩, h1, h2⟩ := bind_eq_ok.1 h
        obtain ⟨e1, rfl⟩ := takeStreaming_ok h1
        simp at h2
        rw [h2.1] at e1
        simp at e1
        simp only [if_neg hz]
        refine Short.bind ?_ _
        exact truncOk_takeStreaming _ _ _ (reads_takeStreaming c) q s (by rw [← e1, hq]) hs
    · rename_i hl
      split at h
      · rename_i hc
        have : a = false := by
          obtain ⟨_, _, _, e, _⟩ := skipLoop_ok (local_skipContent d) h
          exact e
        subst this
        simp only [if_pos hc]
        exact skipLoop_trunc (local_skipContent d) ih h hq hs (by omega)
      · simp at h

theorem truncOk_getObjectContent (d : Nat) (hdr : Header) : TruncOk (getObjectContent d hdr) := by
  intro pre a hr q s hq hs
  obtain ⟨pre', b, e, h1, rfl⟩ := getObjectContent_ok hr.nil_of
  simp at e
  subst e
  obtain ⟨pre', e, r⟩ := local_skipContent _ _ _ _ _ h1
  simp at e
  subst e
  exact (truncOk_skipContent d hdr _ _ r q s hq hs).bind _

theorem truncOk_anyFromBer : TruncOk anyFromBer :=
  TruncOk.bind (f := fun h i => getObjectContent maxRecursion h i >>? fun s =>
      .ok (s.1, Any.mk h s.2)) local_headerFromBer truncOk_headerFromBer
    fun h => TruncOk.bind (f := fun s i => .ok (i, Any.mk h s)) (local_getObjectContent _ _)
      (truncOk_getObjectContent _ _) fun _ => TruncOk.ok _

theorem truncOk_anyFromDer : TruncOk anyFromDer :=
  TruncOk.bind (f := fun (h : Header) i => liftRes h.length.definite? >>? fun l =>
      takeStreaming l i >>? fun s => .ok (s.1, Any.mk h s.2))
    local_headerFromDer truncOk_headerFromDer fun h =>
    TruncOk.guard (f := fun l i => takeStreaming l i >>? fun s => .ok (s.1, Any.mk h s.2))
      fun l _ => TruncOk.bind (f := fun s i => .ok (i, Any.mk h s)) (local_takeStreaming l)
        (truncOk_takeStreaming l) fun _ => TruncOk.ok _

/-- Validation after reading an `Any` does not change the answer to truncated input. -/
theorem TruncOk.post {p : Bytes → IRes BerError α} (lp : Local p) (tp : TruncOk p)
    (g : α → Outcome (NomErr BerError) β) :
    TruncOk (fun i => p i >>? fun r => g r.2 >>? fun v => .ok (r.1, v)) :=
  TruncOk.bind (f := fun a i => g a >>? fun v => .ok (i, v)) lp tp fun _ =>
    TruncOk.guard (f := fun v i => .ok (i, v)) fun _ _ => TruncOk.ok _

theorem truncOk_parseBerAnyR (D : Deps) (d : Nat) : TruncOk (parseBerAnyR D d) := by
  unfold parseBerAnyR
  by_cases hd : d = 0
  · intro pre a hr; have := hr []; simp [hd] at this
  · simp only [if_neg hd]
    exact truncOk_anyFromBer.post local_anyFromBer fun a => liftRes (objectFromAny D d a)

theorem truncOk_parseBerAnyWithTagR (D : Deps) (t d : Nat) :
    TruncOk (parseBerAnyWithTagR D t d) := by
  unfold parseBerAnyWithTagR
  by_cases hd : d = 0
  · intro pre a hr; have := hr []; simp [hd] at this
  · simp only [if_neg hd]
    have := truncOk_anyFromBer.post local_anyFromBer fun a =>
      liftRes (a.header.assertTag t) >>? fun _ => liftRes (objectFromAny D d a)
    simpa only [bind_assoc'] using this

theorem truncOk_parseBerUint (n : Nat) : TruncOk (parseBerUint n) :=
  truncOk_anyFromBer.post local_anyFromBer fun a => liftRes (uintFromAny n a)

theorem truncOk_parseBerInt (n : Nat) : TruncOk (parseBerInt n) :=
  truncOk_anyFromBer.post local_anyFromBer fun a => liftRes (intFromAny n a)

theorem truncOk_parseDerUint (n : Nat) : TruncOk (parseDerUint n) := by
  have := truncOk_anyFromDer.post local_anyFromDer fun a =>
    liftRes a.header.assertPrimitive >>? fun _ =>
    liftRes (derIntConstraints a.data) >>? fun _ => liftRes (uintFromAny n a)
  simp only [bind_assoc'] at this
  exact this

theorem truncOk_parseDerInt (n : Nat) : TruncOk (parseDerInt n) := by
  have := truncOk_anyFromDer.post local_anyFromDer fun a =>
    liftRes a.header.assertPrimitive >>? fun _ =>
    liftRes (derIntConstraints a.data) >>? fun _ => liftRes (intFromAny n a)
  simp only [bind_assoc'] at this
  exact this

/-- Consequence: an `Incomplete(n)` answer of a local `TruncOk` parser is a lower bound. -/
theorem incomplete_lower_bound {p : Bytes → IRes BerError α} (lp : Local p) (tp : TruncOk p)
    {i t rem : Bytes} {a : α} {n : Nat} (h : p i = .err (.incomplete (.size n)))
    (hok : p (i ++ t) = .ok (rem, a)) : n ≤ t.length := by
  obtain ⟨pre, e, r⟩ := lp _ _ _ hok
  by_cases hle : pre.length ≤ i.length
  · exfalso
    obtain ⟨x, hx⟩ : ∃ x, i = pre ++ x := by
      have h1 := congrArg (List.take pre.length) e
      rw [List.take_append_of_le_length hle] at h1
      simp at h1
      exact ⟨i.drop pre.length, by
        conv => lhs; rw [← List.take_append_drop pre.length i, h1]⟩
    rw [hx, r x] at h
    simp at h
  · obtain ⟨s, hs, hne⟩ : ∃ s, pre = i ++ s ∧ s ≠ [] := by
      have h1 := congrArg (List.take i.length) e
      rw [List.take_append_of_le_length (Nat.le_of_not_le hle)] at h1
      simp at h1
      refine ⟨pre.drop i.length, by
        conv => lhs; rw [← List.take_append_drop i.length pre, ← h1], ?_⟩
      intro h0
      have := congrArg List.length h0
      simp at this; omega
    have hlen := congrArg List.length e
    rw [hs] at hlen
    simp at hlen
    rcases tp _ _ r i s hs hne with ⟨m, h1, _, h3⟩ | ⟨h1, _⟩
    · rw [h] at h1
      simp at h1
      omega
    · rw [h] at h1; simp at h1

/-! ## Weaker version without a bound on the hint, for DER and typed parsers -/

/-- Truncated inputs get `Incomplete`, or `InvalidTag` when cut inside a high tag number. -/
def TruncW (p : Bytes → IRes BerError α) : Prop :=
  ∀ pre a, Reads p pre a → ∀ q s, pre = q ++ s → s ≠ [] →
    ∃ k, k ≤ pre.length ∧ Short k q (p q)

theorem TruncOk.weak {p : Bytes → IRes BerError α} (h : TruncOk p) : TruncW p :=
  fun pre a hr q s hq hs => ⟨s.length, by simp [hq], h pre a hr q s hq hs⟩

theorem TruncW.bind {p : Bytes → IRes BerError α} {f : α → Bytes → IRes BerError β}
    (lp : Local p) (tp : TruncW p) (tf : ∀ a, TruncW (f a)) :
    TruncW (fun i => p i >>? fun r => f r.2 r.1) := by
  intro pre b hr q s hq hs
  obtain ⟨⟨i1, a⟩, h1, h2⟩ := bind_eq_ok.1 hr.nil_of
  obtain ⟨p1, rfl, r1⟩ := lp _ _ _ h1
  have hf : Reads (f a) i1 b := by
    intro x
    have := hr x
    simp only [List.append_assoc, r1 (i1 ++ x), ok_bind] at this
    exact this
  rcases append_split hq.symm hs with ⟨s1, e1, hs1, rfl⟩ | ⟨q2, rfl, e2⟩
  · obtain ⟨k, hk, h⟩ := tp _ _ r1 q s1 e1 hs1
    exact ⟨k, by simp; omega, h.bind _⟩
  · obtain ⟨k, hk, h⟩ := tf a _ _ hf q2 s e2 hs
    simp only [r1 q2, ok_bind]
    exact ⟨k, by simp; omega, h.prepend p1⟩

theorem TruncW.guard {x : Outcome (NomErr BerError) α} {f : α → Bytes → IRes BerError β}
    (hf : ∀ a, x = .ok a → TruncW (f a)) : TruncW (fun i => x >>? fun a => f a i) := by
  intro pre b hr q s hq hs
  obtain ⟨a, h1, h2⟩ := bind_eq_ok.1 hr.nil_of
  simp only [h1, ok_bind]
  refine hf a h1 pre b ?_ q s hq hs
  intro y
  have := hr y
  simpa [h1] using this

theorem TruncW.ok (a : α) : TruncW (fun i => .ok (i, a)) := (TruncOk.ok a).weak

theorem truncW_berReadElementContentAs (D : Deps) (tag : Nat) (len : Length) (c : Bool) (d : Nat) :
    TruncW (fun i => berReadElementContentAs D i tag len c d) := by
  cases len with
  | indefinite =>
    refine TruncOk.weak ?_
    exact TruncOk.bind (f := fun x i => liftRes (objectFromAny D d
        { header := Header.new .universal c tag .indefinite, data := x }) >>? fun o =>
        .ok (i, o.content)) (local_getObjectContent _ _) (truncOk_getObjectContent _ _) fun _ =>
      TruncOk.guard (f := fun (o : BerObject) i => .ok (i, o.content)) fun _ _ => TruncOk.ok _
  | definite l =>
    intro pre a hr q s hq hs
    have h := hr.nil_of
    have hs' : 0 < s.length := List.length_pos_iff.2 hs
    simp only [berReadElementContentAs_eq] at h ⊢
    split at h
    · simp at h
    split at h
    · simp at h
    rename_i h1 h2
    obtain ⟨data, e, hl, _⟩ := readContentGo_def h
    simp at e
    have : q.length + s.length = l := by rw [← hl, ← e, hq]; simp
    rw [if_neg h1, if_pos (by omega)]
    exact ⟨l, by rw [hq]; simp; omega, .inl ⟨l, by simp [Needed.new]; omega, by omega, by omega⟩⟩

theorem truncW_derReadElementContentAs (D : Deps) (tag : Nat) (len : Length) (c : Bool) (d : Nat) :
    TruncW (fun i => derReadElementContentAs D i tag len c d) := by
  intro pre a hr q s hq hs
  have h := hr.nil_of
  have hs' : 0 < s.length := List.length_pos_iff.2 hs
  obtain ⟨l, pre', rfl, e, hl, _⟩ := derReadElementContentAs_ok h
  simp at e
  have : q.length + s.length = l := by rw [← hl, ← e, hq]; simp
  simp only [derReadElementContentAs, Length.definite?, liftRes_ok, ok_bind]
  rw [if_pos (by omega)]
  exact ⟨l, by rw [hq]; simp; omega, .inl ⟨l, by simp [Needed.new]; omega, by omega, by omega⟩⟩

theorem truncW_parseBerWithTag (D : Deps) (tag : Nat) : TruncW (parseBerWithTag D tag) :=
  TruncW.bind (f := fun (h : Header) i => liftRes (h.assertTag tag) >>? fun _ =>
      berReadElementContentAs D i h.tag h.length h.constructed maxRecursion >>? fun s =>
        .ok (s.1, BerObject.mk h s.2)) local_headerFromBer truncOk_headerFromBer.weak fun h =>
    TruncW.guard (f := fun _ i =>
      berReadElementContentAs D i h.tag h.length h.constructed maxRecursion >>? fun s =>
        .ok (s.1, BerObject.mk h s.2)) fun _ _ =>
      TruncW.bind (f := fun s i => .ok (i, BerObject.mk h s))
        (local_berReadElementContentAs D _ _ _ _) (truncW_berReadElementContentAs D _ _ _ _)
        fun _ => TruncW.ok _

theorem truncW_parseDerWithTag (D : Deps) (tag : Nat) : TruncW (parseDerWithTag D tag) :=
  TruncW.bind (f := fun (h : Header) i => liftRes (h.assertTag tag) >>? fun _ =>
      derReadElementContentAs D i h.tag h.length h.constructed maxRecursion >>? fun s =>
        .ok (s.1, BerObject.mk h s.2)) local_headerFromDer truncOk_headerFromDer.weak fun h =>
    TruncW.guard (f := fun _ i =>
      derReadElementContentAs D i h.tag h.length h.constructed maxRecursion >>? fun s =>
        .ok (s.1, BerObject.mk h s.2)) fun _ _ =>
      TruncW.bind (f := fun s i => .ok (i, BerObject.mk h s))
        (local_derReadElementContentAs D _ _ _ _) (truncW_derReadElementContentAs D _ _ _ _)
        fun _ => TruncW.ok _

theorem truncOk_derUnknown (hdr : Header) (d : Nat) : TruncOk (fun i => derUnknown i hdr d) :=
  TruncOk.bind
    (f := fun c i => .ok (i, BerObject.mk hdr (.unknown { header := hdr, data := c })))
    (local_getObjectContent d hdr) (truncOk_getObjectContent d hdr) fun _ => TruncOk.ok _

theorem truncW_derReadElementContentRecursive (D : Deps) (hdr : Header) (d : Nat) :
    TruncW (fun i => derReadElementContentRecursive D i hdr d) := by
  intro pre o hr q s hq hs
  have hs' : 0 < s.length := List.length_pos_iff.2 hs
  by_cases hc : hdr.cls = .universal
  · have h := hr.nil_of
    simp only [derReadElementContentRecursive, hc, ne_eq, not_true_eq_false, if_false] at h ⊢
    have key : ∃ l, hdr.length = .definite l ∧ pre.length = l := by
      split at h
      · rename_i r hr'
        obtain ⟨l, pre', h1, h2, h3, _⟩ := derReadElementContentAs_ok hr'
        simp at h
        rw [h.1] at h2; simp at h2
        exact ⟨l, h1, by rw [h2]; exact h3⟩
      · rename_i t ht
        cases hlen : hdr.length with
        | indefinite =>
          rw [hlen] at ht
          simp [derReadElementContentAs, Length.definite?] at ht
        | definite l =>
          unfold derUnknown at h
          obtain ⟨⟨i1, c⟩, h1, h2⟩ := bind_eq_ok.1 h
          simp at h2
          obtain ⟨e, hl⟩ := getObjectContent_def_len hlen h1
          rw [h2.1] at e
          simp at e
          exact ⟨l, rfl, by rw [e]; exact hl⟩
      · simp at h
      · simp at h
      · simp at h
    obtain ⟨l, hl, hp⟩ := key
    have : q.length + s.length = l := by rw [← hp, hq]; simp
    have : derReadElementContentAs D q hdr.tag hdr.length hdr.constructed d =
        .err (.incomplete (.size l)) := by
      simp only [hl, derReadElementContentAs, Length.definite?, liftRes_ok, ok_bind]
      rw [if_pos (by omega)]
      simp [Needed.new]; omega
    rw [this]
    exact ⟨l, by rw [hq]; simp; omega, .inl ⟨l, rfl, by omega, by omega⟩⟩
  · simp only [derReadElementContentRecursive, ne_eq, hc, not_false_eq_true, if_true] at hr ⊢
    refine ⟨s.length, by simp [hq], truncOk_derUnknown hdr d pre o ?_ q s hq hs⟩
    intro x
    have := hr x
    simpa only [derReadElementContentRecursive, ne_eq, hc, not_false_eq_true, if_true] using this

theorem truncW_parseDerRecursive (D : Deps) (d : Nat) : TruncW (parseDerRecursive D d) := by
  unfold parseDerRecursive
  refine TruncW.bind (f := fun h i => match h.length with
    | .definite l =>
      if maxObjectSize < l then .err (.error .invalidLength)
      else derReadElementContentRecursive D i h d
    | .indefinite => derReadElementContentRecursive D i h d)
    local_headerFromDer truncOk_headerFromDer.weak fun h => ?_
  cases h.length with
  | definite l =>
    by_cases hm : maxObjectSize < l
    · simp only [if_pos hm]
      intro pre a hr; have := hr []; simp at this
    · simp only [if_neg hm]
      exact truncW_derReadElementContentRecursive D h d
  | indefinite => exact truncW_derReadElementContentRecursive D h d

/-- Consequence: an `Incomplete(n)` answer of a local `TruncW` parser never exceeds the size of
the completed element. -/
theorem incomplete_bound_weak {p : Bytes → IRes BerError α} (lp : Local p) (tp : TruncW p)
    {i t rem : Bytes} {a : α} {n : Nat} (h : p i = .err (.incomplete (.size n)))
    (hok : p (i ++ t) = .ok (rem, a)) : n ≤ i.length + t.length := by
  obtain ⟨pre, e, r⟩ := lp _ _ _ hok
  have hlen := congrArg List.length e
  simp at hlen
  rcases List.append_eq_append_iff.1 e with ⟨s, h1, h2⟩ | ⟨x, h1, h2⟩
  · by_cases hs : s = []
    · exfalso
      subst hs
      simp at h1
      have := r []
      rw [h1] at this
      simp at this
      rw [h] at this
      simp at this
    · obtain ⟨k, hk, ⟨m, g1, _, g3⟩ | ⟨g1, _⟩⟩ := tp _ _ r i s h1 hs
      · rw [h] at g1
        simp at g1
        omega
      · rw [h] at g1; simp at g1
  · exfalso
    rw [h1, r x] at h
    simp at h

end Verif
