import Verif.SpecStream
import Verif.Props.Cuts
import Verif.Props.LangExact
/-!
# Every program on truncated input and on streams: C126
-/
namespace Verif
open Outcome Spec

variable {E : Type} [ParseErr E] {α β : Type}

/-! ## Truncated input: helper lemmas -/

/-- Truncated inputs of `p` get an answer in `A`. -/
def CutBy (A : Bytes → NomErr E → Prop) (p : Bytes → IRes E α) : Prop :=
  ∀ pre a, Reads p pre a → ∀ q s, pre = q ++ s → s ≠ [] → ∃ x, p q = .err x ∧ A q x

omit [ParseErr E] in
theorem CutBy.mono {A B : Bytes → NomErr E → Prop} {p : Bytes → IRes E α} (h : CutBy A p) (hA : ∀ q x, A q x → B q x) :
    CutBy B p := by
  intro pre a hr q s e hs
  obtain ⟨x, h1, h2⟩ := h pre a hr q s e hs
  exact ⟨x, h1, hA _ _ h2⟩

omit [ParseErr E] in
theorem CutBy.bind {A : Bytes → NomErr E → Prop} {B : α → Bytes → NomErr E → Prop} {p : Bytes → IRes E α}
    {f : α → Bytes → IRes E β} (lp : Local p) (hp : CutBy A p) (hf : ∀ a, CutBy (B a) (f a)) :
    CutBy (fun q x => A q x ∨ ∃ rem a, p q = .ok (rem, a) ∧ (∃ pre, q = pre ++ rem) ∧ B a rem x)
      (fun i => p i >>? fun r => f r.2 r.1) := by
  intro pre b hr q s hq hs
  obtain ⟨⟨i1, a⟩, h1, h2⟩ := bind_eq_ok.1 hr.nil_of
  obtain ⟨p1, rfl, r1⟩ := lp _ _ _ h1
  have hf' : Reads (f a) i1 b := by
    intro x
    have := hr x
    simp only [List.append_assoc, r1 (i1 ++ x), ok_bind] at this
    exact this
  rcases append_split hq.symm hs with ⟨s1, e1, hs1, rfl⟩ | ⟨q2, rfl, e2⟩
  · obtain ⟨x, g1, g2⟩ := hp _ _ r1 q s1 e1 hs1
    exact ⟨x, by simp [g1], .inl g2⟩
  · obtain ⟨x, g1, g2⟩ := hf a _ _ hf' q2 s e2 hs
    exact ⟨x, by simp only [r1 q2, ok_bind]; exact g1, .inr ⟨q2, a, r1 q2, ⟨p1, rfl⟩, g2⟩⟩

omit [ParseErr E] in
theorem CutBy.of_nil {A : Bytes → NomErr E → Prop} {p : Bytes → IRes E α} (h : ∀ pre a, Reads p pre a → pre = []) :
    CutBy A p := by
  intro pre a hr q s hq hs
  rw [h pre a hr] at hq
  simp only [List.nil_eq, List.append_eq_nil_iff] at hq
  exact absurd hq.2 hs

theorem cutInTag_suffix {q : Bytes} (h : CutInTag q) (pre : Bytes) : CutInTag (pre ++ q) := h.prepend pre

theorem Short.unfinished {k : Nat} {q : Bytes} {r : IRes BerError α} (h : Short k q r) :
    ∃ x, (convertErr r : IRes E α) = .err x ∧ Unfinished q x := by
  rcases h with ⟨n, rfl, h1, _⟩ | ⟨rfl, h⟩
  · exact ⟨_, rfl, .more n h1⟩
  · exact ⟨_, rfl, .tag h⟩

theorem reads_convertErr {p : Bytes → IRes BerError α} {pre : Bytes} {a : α} :
    Reads (fun i => (convertErr (p i) : IRes E α)) pre a ↔ Reads p pre a :=
  ⟨fun h x => mapErr_eq_ok.1 (h x), fun h x => mapErr_eq_ok.2 (h x)⟩

theorem TruncW.cutBy {p : Bytes → IRes BerError α} (h : TruncW p) :
    CutBy (E := E) Unfinished (fun i => convertErr (p i)) := by
  intro pre a hr q s e hs
  obtain ⟨k, _, h1⟩ := h pre a (reads_convertErr.1 hr) q s e hs
  exact h1.unfinished

theorem cutBy_takeComplete (n : Nat) :
    CutBy (E := E) (fun q x => q.length < n ∧ x = .error (ParseErr.ofKind q .eof)) (takeComplete n) := by
  intro pre a hr q s hq hs
  have h := hr.nil_of
  have hs' : 0 < s.length := List.length_pos_iff.2 hs
  unfold takeComplete at h
  split at h
  · simp at h
  · simp only [ok.injEq, Prod.mk.injEq] at h
    have h1 : pre.length ≤ n := by simpa using h.1
    have h2 : pre.length = q.length + s.length := by rw [hq, List.length_append]
    have hlt : q.length < n := by omega
    exact ⟨_, by unfold takeComplete; rw [if_pos hlt], hlt, rfl⟩

theorem headerBy_iff {R : Rules} {i rem : Bytes} {h : Header} :
    frameHeader R i = .ok (rem, h) ↔ ∃ hb, i = hb ++ rem ∧ HeaderBy R hb h := by
  cases R
  · exact headerFromBer_iff
  · exact headerFromDer_iff

theorem truncOk_frameHeader (R : Rules) : TruncOk (frameHeader R) := by
  cases R
  · exact truncOk_headerFromBer
  · exact truncOk_headerFromDer

theorem cutBy_frameContent (R : Rules) (h : Header) :
    CutBy (E := E) (fun q x => Unfinished q x ∨
      ∃ l, h.length = .definite l ∧ q.length < l ∧ x = .error (ParseErr.ofKind q .eof)) (frameContent R h) := by
  cases hl : h.length with
  | definite l =>
    rw [show (frameContent R h : Bytes → IRes E Bytes) = takeComplete l from by
      funext i; cases R <;> simp only [frameContent, hl]]
    exact (cutBy_takeComplete l).mono fun q x hx => .inr ⟨l, rfl, hx⟩
  | indefinite =>
    cases R with
    | ber =>
      rw [show (frameContent .ber h : Bytes → IRes E Bytes) = fun i => convertErr (getObjectContent maxRecursion h i)
        from by funext i; simp only [frameContent, hl]]
      exact (truncOk_getObjectContent maxRecursion h).weak.cutBy.mono fun q x hx => .inl hx
    | der =>
      intro pre a hr
      have := hr []
      simp [frameContent, hl] at this

theorem Unfinished.prepend {q : Bytes} {x : NomErr E} (h : Unfinished q x) (pre : Bytes) : Unfinished (pre ++ q) x := by
  cases h with
  | more n h => exact .more n h
  | tag h => exact .tag (h.prepend pre)

theorem cutBy_frame (R : Rules) : CutBy (E := E) (Headless R) (frame R) := by
  have h := CutBy.bind (E := E)
    (f := fun h i => frameContent R h i >>? fun s => .ok (s.1, (h, s.2)))
    ((local_frameHeader R).mapErr (NomErr.map ParseErr.ofBer)) (truncOk_frameHeader R).weak.cutBy
    fun h => CutBy.bind (f := fun s i => .ok (i, (h, s))) (local_frameContent R h) (cutBy_frameContent R h)
      fun s => CutBy.of_nil (A := fun _ _ => False) fun pre b hb => by have := hb []; simp at this; exact this.1
  rw [show (frame R : Bytes → IRes E (Header × Bytes)) = _ from funext (frame_eq R)]
  refine h.mono fun q x hx => ?_
  rcases hx with hx | ⟨rem, hd, h1, _, hx⟩
  · exact .unfinished _ hx
  · obtain ⟨hb, rfl, H⟩ := headerBy_iff.1 (mapErr_eq_ok.1 h1)
    rcases hx with (hx | ⟨l, h2, h3, rfl⟩) | ⟨_, _, _, _, hx⟩
    · exact .unfinished _ (Unfinished.prepend hx hb)
    · exact .ends hb rem hd l rfl H h2 h3
    · exact hx.elim

theorem cutBy_container {O : Type} (R : Rules) (f : Bytes → Header → IRes E O) :
    CutBy (E := E) (Headless R) (container R f) := by
  have h := CutBy.bind (E := E) (f := fun s i => f s.2 s.1 >>? fun v => .ok (i, v.2)) (local_frame R) (cutBy_frame R)
    fun s => CutBy.of_nil (A := fun _ _ => False) fun pre b hb => by
      obtain ⟨v, _, h2⟩ := bind_eq_ok.1 (hb [])
      simp only [List.append_nil, ok.injEq, Prod.mk.injEq] at h2
      exact h2.1
  refine h.mono fun q x hx => ?_
  rcases hx with hx | ⟨_, _, _, _, hx⟩
  · exact hx
  · exact hx.elim

theorem cutBy_definedG {O : Type} (R : Rules) (tag : Nat) (f : Bytes → Header → IRes E O) :
    CutBy (E := E) (Headless R) (definedG R tag f) := cutBy_container R _

theorem cutBy_explicitG {O : Type} (R : Rules) (tag : Nat) (f : Bytes → Header → IRes E O) :
    CutBy (E := E) (Headless R) (taggedExplicitG R tag f) := cutBy_container R _

theorem cutBy_implicitG {O : Type} (R : Rules) (tag : Nat) (f : Bytes → Header → Nat → IRes E O) :
    CutBy (E := E) (Headless R) (taggedImplicitG R tag f) := cutBy_container R _

theorem cutBy_ofV {T : Type} (R : Rules) (tag : Nat) (f : Bytes → IRes E T) :
    CutBy (E := E) (Headless R) (ofV R tag f) := cutBy_definedG R tag _

omit [ParseErr E] in
theorem truncW_prim (D : Deps) (p : Prim α) (hp : (Prog.prim p : Prog E α).Streaming) : TruncW (p.run D) := by
  cases p with
  | any R d =>
    cases R
    · exact (truncOk_parseBerAnyR D d).weak
    · exact truncW_parseDerRecursive D d
  | typed R tag =>
    cases R
    · exact truncW_parseBerWithTag D tag
    · exact truncW_parseDerWithTag D tag
  | uint R n =>
    cases R
    · exact (truncOk_parseBerUint n.octets).weak
    · exact (truncOk_parseDerUint n.octets).weak
  | int R n =>
    cases R
    · exact (truncOk_parseBerInt n.octets).weak
    · exact (truncOk_parseDerInt n.octets).weak
  | slice R tag => exact hp.elim
  | rawAny => exact truncOk_anyFromBer.weak
  | header R =>
    cases R
    · exact truncOk_headerFromBer.weak
    · exact truncOk_headerFromDer.weak
  | content R tag h d =>
    cases R
    · exact truncW_berReadElementContentAs D tag h.length h.constructed d
    · exact truncW_derReadElementContentAs D tag h.length h.constructed d
  | element h => exact truncW_derReadElementContentRecursive D h maxRecursion

theorem prog_cutBy (D : Deps) (hD : TimesKnown D) (p : Prog E α) (hp : p.Plain) : CutBy (p.Truncated D) (p.run D) := by
  induction p with
  | value x =>
    exact CutBy.of_nil fun pre b hb => by
      obtain ⟨v, _, h2⟩ := bind_eq_ok.1 (hb [])
      simp only [List.append_nil, ok.injEq, Prod.mk.injEq] at h2
      exact h2.1
  | within b p _ =>
    exact CutBy.of_nil fun pre b hb => by
      obtain ⟨v, _, h2⟩ := bind_eq_ok.1 (hb [])
      simp only [List.append_nil, ok.injEq, Prod.mk.injEq] at h2
      exact h2.1
  | bind p f ihp ihf =>
    refine (CutBy.bind (f := fun a i => (f a).run D i) (prog_local D p hp.1) (ihp hp.1) fun a => ihf a (hp.2 a)).mono ?_
    rintro q x (h | ⟨rem, a, h1, _, h2⟩)
    · exact .inl h
    · exact .inr ⟨rem, a, (C119_accepts D hD p q rem a).1 h1, h2⟩
  | prim p =>
    have key := truncW_prim (E := E) D p
    cases p with
    | slice R tag =>
      intro pre a hr q s e hs
      have hr' : Reads (parseSlice R tag) pre a := reads_convertErr.1 hr
      obtain ⟨x, h1, h2⟩ := cutBy_container (E := BerError) R _ pre a hr' q s e hs
      refine ⟨x.map ParseErr.ofBer, ?_, x, h2, rfl⟩
      show convertErr (parseSlice R tag q) = _
      rw [parseSlice, h1]
      rfl
    | _ => exact (key trivial).cutBy
  | container R f _ => exact cutBy_container R _
  | defined R tag f _ => exact cutBy_definedG R tag _
  | explicit R tag f _ => exact cutBy_explicitG R tag _
  | implicit R tag f _ => exact cutBy_implicitG R tag _
  | several R tag p _ => exact cutBy_ofV R tag _
  | attempt p _ => exact hp.elim
  | opt p _ => exact hp.elim
  | orElse p q _ _ => exact hp.elim
  | many p _ => exact hp.elim
  | allConsuming p _ => exact hp.elim
  | eof => exact hp.elim
  | complete p ih =>
    intro pre a hr q s e hs
    obtain ⟨x, h1, h2⟩ := ih hp pre a (fun y => complete_ok.1 (hr y)) q s e hs
    simp only [Prog.run, complete, h1]
    cases x with
    | incomplete n => exact ⟨_, rfl, .inr ⟨⟨n, h2⟩, rfl⟩⟩
    | error e => exact ⟨_, rfl, .inl ⟨h2, by simp⟩⟩
    | failure e => exact ⟨_, rfl, .inl ⟨h2, by simp⟩⟩
  | cut p ih =>
    intro pre a hr q s e hs
    obtain ⟨x, h1, h2⟩ := ih hp pre a (fun y => cut_ok.1 (hr y)) q s e hs
    simp only [Prog.run, cut, h1]
    cases x with
    | incomplete n => exact ⟨_, rfl, .inl ⟨h2, by simp⟩⟩
    | error e => exact ⟨_, rfl, .inr ⟨e, h2, rfl⟩⟩
    | failure e => exact ⟨_, rfl, .inl ⟨h2, by simp⟩⟩

/-! ## Streams: helper lemmas -/

/-- A reader that has `k` octets of `pre` and fetches what it is asked for comes to the end of `pre`, or stops inside a
tag number. -/
inductive Fetch (p : Bytes → IRes E α) (pre : Bytes) : Nat → Prop
  | done : Fetch p pre pre.length
  | tag (k : Nat) : k < pre.length → CutInTag (pre.take k) →
      p (pre.take k) = .err (.error (ParseErr.ofBer .invalidTag)) → Fetch p pre k
  | step (k n : Nat) : p (pre.take k) = .err (.incomplete (.size n)) → 1 ≤ n → k + n ≤ pre.length →
      Fetch p pre (k + n) → Fetch p pre k

/-- A reader that starts with nothing. -/
def Feeds (p : Bytes → IRes E α) : Prop := ∀ pre a, Reads p pre a → Fetch p pre 0

theorem TruncOk.fetch {p : Bytes → IRes BerError α} (tp : TruncOk p) {pre : Bytes} {a : α} (hr : Reads p pre a)
    (k : Nat) (hk : k ≤ pre.length) : Fetch p pre k := by
  generalize hm : pre.length - k = m
  induction m using Nat.strongRecOn generalizing k with
  | _ m ih =>
    by_cases he : k = pre.length
    · subst he
      exact .done
    · have hl : (pre.drop k).length = pre.length - k := List.length_drop
      have hs : pre.drop k ≠ [] := by
        intro h0
        rw [h0, List.length_nil] at hl
        omega
      rcases tp pre a hr _ _ (List.take_append_drop k pre).symm hs with ⟨n, h1, h2, h3⟩ | ⟨h1, h2⟩
      · exact .step k n h1 h2 (by omega) (ih (pre.length - (k + n)) (by omega) (k + n) (by omega) rfl)
      · exact .tag k (by omega) h2 h1

theorem fetch_second {p : Bytes → IRes E α} {f : α → Bytes → IRes E β} {p1 p2 : Bytes} {a : α} (hr : Reads p p1 a)
    {k : Nat} (h : Fetch (f a) p2 k) : Fetch (fun i => p i >>? fun r => f r.2 r.1) (p1 ++ p2) (p1.length + k) := by
  have ht : ∀ k, (p1 ++ p2).take (p1.length + k) = p1 ++ p2.take k := fun k => List.take_length_add_append k
  induction h with
  | done =>
    rw [← List.length_append]
    exact .done
  | tag k h1 h2 h3 =>
    refine .tag _ (by rw [List.length_append]; omega) ?_ ?_
    · rw [ht]; exact h2.prepend p1
    · rw [ht, hr]; exact h3
  | step k n h1 h2 h3 _ ih =>
    refine .step _ n ?_ h2 (by rw [List.length_append]; omega) (by rw [Nat.add_assoc]; exact ih)
    rw [ht, hr]; exact h1

theorem fetch_first {p : Bytes → IRes E α} {f : α → Bytes → IRes E β} {p1 p2 : Bytes} {a : α} (hr : Reads p p1 a)
    (hf : Fetch (f a) p2 0) {k : Nat} (h : Fetch p p1 k) :
    Fetch (fun i => p i >>? fun r => f r.2 r.1) (p1 ++ p2) k := by
  induction h with
  | done => exact fetch_second hr hf
  | tag k h1 h2 h3 =>
    have ht : (p1 ++ p2).take k = p1.take k := List.take_append_of_le_length (Nat.le_of_lt h1)
    refine .tag _ (by rw [List.length_append]; omega) (by rw [ht]; exact h2) ?_
    rw [ht, h3]; rfl
  | step k n h1 h2 h3 _ ih =>
    have ht : (p1 ++ p2).take k = p1.take k := List.take_append_of_le_length (by omega)
    refine .step _ n ?_ h2 (by rw [List.length_append]; omega) ih
    rw [ht, h1]; rfl

omit [ParseErr E] in
theorem reads_bind_inv {p : Bytes → IRes E α} {f : α → Bytes → IRes E β} (lp : Local p) {pre : Bytes} {b : β}
    (hr : Reads (fun i => p i >>? fun r => f r.2 r.1) pre b) :
    ∃ p1 p2 a, pre = p1 ++ p2 ∧ Reads p p1 a ∧ Reads (f a) p2 b := by
  obtain ⟨⟨i1, a⟩, h1, h2⟩ := bind_eq_ok.1 hr.nil_of
  obtain ⟨p1, rfl, r1⟩ := lp _ _ _ h1
  refine ⟨p1, i1, a, rfl, r1, fun x => ?_⟩
  have := hr x
  simp only [List.append_assoc, r1 (i1 ++ x), ok_bind] at this
  exact this

theorem Feeds.bind {p : Bytes → IRes E α} {f : α → Bytes → IRes E β} (lp : Local p) (hp : Feeds p)
    (hf : ∀ a, Feeds (f a)) : Feeds (fun i => p i >>? fun r => f r.2 r.1) := by
  intro pre b hr
  obtain ⟨p1, p2, a, rfl, h1, h2⟩ := reads_bind_inv lp hr
  exact fetch_first h1 (hf a _ _ h2) (hp _ _ h1)

theorem Feeds.guard {x : Outcome (NomErr E) α} {f : α → Bytes → IRes E β} (hf : ∀ a, x = .ok a → Feeds (f a)) :
    Feeds (fun i => x >>? fun a => f a i) := by
  intro pre b hr
  obtain ⟨a, h1, h2⟩ := bind_eq_ok.1 hr.nil_of
  rw [h1] at hr ⊢
  exact hf a h1 pre b hr

theorem Feeds.ok (a : α) : Feeds (E := E) (fun i => .ok (i, a)) := by
  intro pre b h
  have := h []
  simp only [List.append_nil, ok.injEq, Prod.mk.injEq] at this
  rw [this.1]
  exact .done

theorem TruncOk.feeds {p : Bytes → IRes BerError α} (tp : TruncOk p) : Feeds p :=
  fun _ _ hr => tp.fetch hr 0 (Nat.zero_le _)

/-- What asks for all of its octets at once. -/
theorem Feeds.once {p : Bytes → IRes E α}
    (h : ∀ pre a, Reads p pre a → pre ≠ [] → p [] = .err (.incomplete (.size pre.length))) : Feeds p := by
  intro pre a hr
  by_cases hp : pre = []
  · subst hp
    exact .done
  · have : 0 < pre.length := List.length_pos_iff.2 hp
    refine .step 0 pre.length (h pre a hr hp) this (by omega) ?_
    rw [Nat.zero_add]
    exact .done

theorem feeds_berReadElementContentAs (D : Deps) (tag : Nat) (len : Length) (c : Bool) (d : Nat) :
    Feeds (fun i => berReadElementContentAs D i tag len c d) := by
  cases len with
  | indefinite =>
    refine TruncOk.feeds ?_
    exact TruncOk.bind (f := fun x i => liftRes (objectFromAny D d
        { header := Header.new .universal c tag .indefinite, data := x }) >>? fun o =>
        .ok (i, o.content)) (local_getObjectContent _ _) (truncOk_getObjectContent _ _) fun _ =>
      TruncOk.guard (f := fun (o : BerObject) i => .ok (i, o.content)) fun _ _ => TruncOk.ok _
  | definite l =>
    refine Feeds.once fun pre a hr hp => ?_
    have h := hr.nil_of
    have hp' : 0 < pre.length := List.length_pos_iff.2 hp
    simp only [berReadElementContentAs_eq] at h ⊢
    split at h
    · simp at h
    split at h
    · simp at h
    rename_i h1 h2
    obtain ⟨data, e, hl, _⟩ := readContentGo_def h
    simp only [List.append_nil] at e
    have : pre.length = l := by rw [← hl, ← e]
    rw [if_neg h1, if_pos (by rw [List.length_nil]; omega)]
    rw [this, Needed.new, if_neg (by omega)]

theorem derContentAs_needs (D : Deps) (tag l : Nat) (c : Bool) (d : Nat) (hl : 0 < l) :
    derReadElementContentAs D [] tag (.definite l) c d = .err (.incomplete (.size l)) := by
  simp only [derReadElementContentAs, Length.definite?, liftRes_ok, ok_bind]
  rw [if_pos (by simpa using hl)]
  simp [Needed.new]; omega

theorem feeds_derReadElementContentAs (D : Deps) (tag : Nat) (len : Length) (c : Bool) (d : Nat) :
    Feeds (fun i => derReadElementContentAs D i tag len c d) := by
  refine Feeds.once fun pre a hr hp => ?_
  have h := hr.nil_of
  have hp' : 0 < pre.length := List.length_pos_iff.2 hp
  obtain ⟨l, pre', rfl, e, hl, _⟩ := derReadElementContentAs_ok h
  simp only [List.append_nil] at e
  subst e
  subst hl
  exact derContentAs_needs D tag _ c d hp'

theorem feeds_derReadElementContentRecursive (D : Deps) (hdr : Header) (d : Nat) :
    Feeds (fun i => derReadElementContentRecursive D i hdr d) := by
  by_cases hc : hdr.cls = .universal
  · refine Feeds.once fun pre o hr hp => ?_
    have hp' : 0 < pre.length := List.length_pos_iff.2 hp
    have h := hr.nil_of
    simp only [derReadElementContentRecursive, hc, ne_eq, not_true_eq_false, if_false] at h ⊢
    have key : ∃ l, hdr.length = .definite l ∧ pre.length = l := by
      split at h
      · rename_i r hr'
        obtain ⟨l, pre', h1, h2, h3, _⟩ := derReadElementContentAs_ok hr'
        simp at h
        rw [h.1] at h2; simp at h2
        exact ⟨l, h1, by rw [h2]; exact h3⟩
      · rename_i t ht
        cases hlen : hdr.length with
        | indefinite =>
          rw [hlen] at ht
          simp [derReadElementContentAs, Length.definite?] at ht
        | definite l =>
          unfold derUnknown at h
          obtain ⟨⟨i1, c⟩, h1, h2⟩ := bind_eq_ok.1 h
          simp at h2
          obtain ⟨e, hl⟩ := getObjectContent_def_len hlen h1
          rw [h2.1] at e
          simp at e
          exact ⟨l, rfl, by rw [e]; exact hl⟩
      · simp at h
      · simp at h
      · simp at h
    obtain ⟨l, hl, rfl⟩ := key
    rw [hl, derContentAs_needs D hdr.tag _ hdr.constructed d hp']
  · have : (fun i => derReadElementContentRecursive D i hdr d) = fun i => derUnknown i hdr d := by
      funext i
      simp only [derReadElementContentRecursive, ne_eq, hc, not_false_eq_true, if_true]
    rw [this]
    exact (truncOk_derUnknown hdr d).feeds

theorem feeds_parseDerRecursive (D : Deps) (d : Nat) : Feeds (parseDerRecursive D d) := by
  unfold parseDerRecursive
  refine Feeds.bind (f := fun h i => match h.length with
    | .definite l =>
      if maxObjectSize < l then .err (.error .invalidLength)
      else derReadElementContentRecursive D i h d
    | .indefinite => derReadElementContentRecursive D i h d)
    local_headerFromDer truncOk_headerFromDer.feeds fun h => ?_
  cases h.length with
  | definite l =>
    by_cases hm : maxObjectSize < l
    · simp only [if_pos hm]
      intro pre a hr; have := hr []; simp at this
    · simp only [if_neg hm]
      exact feeds_derReadElementContentRecursive D h d
  | indefinite => exact feeds_derReadElementContentRecursive D h d

theorem feeds_parseBerWithTag (D : Deps) (tag : Nat) : Feeds (parseBerWithTag D tag) :=
  Feeds.bind (f := fun (h : Header) i => liftRes (h.assertTag tag) >>? fun _ =>
      berReadElementContentAs D i h.tag h.length h.constructed maxRecursion >>? fun s =>
        .ok (s.1, BerObject.mk h s.2)) local_headerFromBer truncOk_headerFromBer.feeds fun h =>
    Feeds.guard (f := fun _ i =>
      berReadElementContentAs D i h.tag h.length h.constructed maxRecursion >>? fun s =>
        .ok (s.1, BerObject.mk h s.2)) fun _ _ =>
      Feeds.bind (f := fun s i => .ok (i, BerObject.mk h s))
        (local_berReadElementContentAs D _ _ _ _) (feeds_berReadElementContentAs D _ _ _ _)
        fun _ => Feeds.ok _

theorem feeds_parseDerWithTag (D : Deps) (tag : Nat) : Feeds (parseDerWithTag D tag) :=
  Feeds.bind (f := fun (h : Header) i => liftRes (h.assertTag tag) >>? fun _ =>
      derReadElementContentAs D i h.tag h.length h.constructed maxRecursion >>? fun s =>
        .ok (s.1, BerObject.mk h s.2)) local_headerFromDer truncOk_headerFromDer.feeds fun h =>
    Feeds.guard (f := fun _ i =>
      derReadElementContentAs D i h.tag h.length h.constructed maxRecursion >>? fun s =>
        .ok (s.1, BerObject.mk h s.2)) fun _ _ =>
      Feeds.bind (f := fun s i => .ok (i, BerObject.mk h s))
        (local_derReadElementContentAs D _ _ _ _) (feeds_derReadElementContentAs D _ _ _ _)
        fun _ => Feeds.ok _

theorem fetch_convertErr {p : Bytes → IRes BerError α} {pre : Bytes} {k : Nat} (h : Fetch p pre k) :
    Fetch (E := E) (fun i => convertErr (p i)) pre k := by
  induction h with
  | done => exact .done
  | tag k h1 h2 h3 => exact .tag k h1 h2 (by rw [h3]; rfl)
  | step k n h1 h2 h3 _ ih => exact .step k n (by rw [h1]; rfl) h2 h3 ih

omit [ParseErr E] in
theorem truncOk_prim (D : Deps) (p : Prim α) (hp : (Prog.prim p : Prog E α).Sharp) : TruncOk (p.run D) := by
  cases p with
  | any R d =>
    cases R
    · exact truncOk_parseBerAnyR D d
    · exact hp.elim
  | typed R tag => exact hp.elim
  | uint R n =>
    cases R
    · exact truncOk_parseBerUint n.octets
    · exact truncOk_parseDerUint n.octets
  | int R n =>
    cases R
    · exact truncOk_parseBerInt n.octets
    · exact truncOk_parseDerInt n.octets
  | slice R tag => exact hp.elim
  | rawAny => exact truncOk_anyFromBer
  | header R =>
    cases R
    · exact truncOk_headerFromBer
    · exact truncOk_headerFromDer
  | content R tag h d => exact hp.elim
  | element h => exact hp.elim

omit [ParseErr E] in
theorem feeds_prim (D : Deps) (p : Prim α) (hp : (Prog.prim p : Prog E α).Streaming) : Feeds (p.run D) := by
  have key := truncOk_prim (E := E) D p
  cases p with
  | any R d =>
    cases R
    · exact (key trivial).feeds
    · exact feeds_parseDerRecursive D d
  | typed R tag =>
    cases R
    · exact feeds_parseBerWithTag D tag
    · exact feeds_parseDerWithTag D tag
  | slice R tag => exact hp.elim
  | content R tag h d =>
    cases R
    · exact feeds_berReadElementContentAs D tag h.length h.constructed d
    · exact feeds_derReadElementContentAs D tag h.length h.constructed d
  | element h => exact feeds_derReadElementContentRecursive D h maxRecursion
  | _ => exact (key trivial).feeds

omit [ParseErr E] in
theorem streaming_plain (p : Prog E α) (hp : p.Streaming) : p.Plain := by
  induction p with
  | bind p f ihp ihf => exact ⟨ihp hp.1, fun a => ihf a (hp.2 a)⟩
  | value x => trivial
  | within b p _ => trivial
  | prim p => trivial
  | _ => exact hp.elim

omit [ParseErr E] in
theorem sharp_streaming (p : Prog E α) (hp : p.Sharp) : p.Streaming := by
  induction p with
  | bind p f ihp ihf => exact ⟨ihp hp.1, fun a => ihf a (hp.2 a)⟩
  | value x => trivial
  | within b p _ => trivial
  | prim p => cases p <;> first | trivial | exact hp.elim
  | _ => exact hp.elim

theorem prog_feeds (D : Deps) (p : Prog E α) (hp : p.Streaming) : Feeds (p.run D) := by
  induction p with
  | bind p f ihp ihf =>
    exact Feeds.bind (f := fun a i => (f a).run D i) (prog_local D p (streaming_plain p hp.1)) (ihp hp.1)
      fun a => ihf a (hp.2 a)
  | value x => exact Feeds.guard fun a _ => Feeds.ok a
  | within b p _ => exact Feeds.guard (f := fun (r : Bytes × _) i => .ok (i, r.2)) fun r _ => Feeds.ok r.2
  | prim p => exact fun pre a hr => fetch_convertErr (feeds_prim (E := E) D p hp pre a (reads_convertErr.1 hr))
  | _ => exact hp.elim

theorem prog_fetch (D : Deps) (p : Prog E α) (hp : p.Sharp) {pre : Bytes} {a : α} (hr : Reads (p.run D) pre a) (k : Nat)
    (hk : k ≤ pre.length) : Fetch (p.run D) pre k := by
  induction p generalizing pre k with
  | bind p f ihp ihf =>
    obtain ⟨p1, p2, b, rfl, h1, h2⟩ :=
      reads_bind_inv (f := fun a i => (f a).run D i) (prog_local D p (streaming_plain p (sharp_streaming p hp.1))) hr
    rw [List.length_append] at hk
    by_cases h : k ≤ p1.length
    · exact fetch_first (f := fun a i => (f a).run D i) h1 (ihf b (hp.2 b) h2 0 (Nat.zero_le _)) (ihp hp.1 h1 k h)
    · have := fetch_second (f := fun a i => (f a).run D i) h1 (ihf b (hp.2 b) h2 (k - p1.length) (by omega))
      rw [show p1.length + (k - p1.length) = k by omega] at this
      exact this
  | value x =>
    obtain rfl : k = 0 := by
      obtain ⟨v, _, h2⟩ := bind_eq_ok.1 (hr [])
      simp only [List.append_nil, ok.injEq, Prod.mk.injEq] at h2
      rw [h2.1, List.length_nil] at hk
      omega
    exact prog_feeds D (.value x) trivial _ _ hr
  | within b p _ =>
    obtain rfl : k = 0 := by
      obtain ⟨v, _, h2⟩ := bind_eq_ok.1 (hr [])
      simp only [List.append_nil, ok.injEq, Prod.mk.injEq] at h2
      rw [h2.1, List.length_nil] at hk
      omega
    exact prog_feeds D (.within b p) trivial _ _ hr
  | prim p => exact fetch_convertErr ((truncOk_prim (E := E) D p hp).fetch (reads_convertErr.1 hr) k hk)
  | _ => exact hp.elim

theorem readStream_fetch {p : Bytes → IRes E α} {e : Bytes} {a : α} (hr : Reads p e a) (rest : Bytes) {k : Nat}
    (h : Fetch p e k) (fuel : Nat) (hf : e.length < fuel + k) :
    readStream p (e ++ rest) fuel k = some (.ok ([], a), e.length) ∨
      ∃ q s, e = q ++ s ∧ s ≠ [] ∧ CutInTag q ∧
        readStream p (e ++ rest) fuel k = some (.err (.error (ParseErr.ofBer .invalidTag)), q.length) := by
  have ht : ∀ k, k ≤ e.length → (e ++ rest).take k = e.take k := fun k hk => List.take_append_of_le_length hk
  induction h generalizing fuel with
  | done =>
    cases fuel with
    | zero => omega
    | succ fuel =>
      refine .inl ?_
      have := hr []
      rw [List.append_nil] at this
      rw [readStream, ht _ (Nat.le_refl _), List.take_length, this]
  | tag k h1 h2 h3 =>
    cases fuel with
    | zero => omega
    | succ fuel =>
      refine .inr ⟨e.take k, e.drop k, (List.take_append_drop k e).symm, ?_, h2, ?_⟩
      · intro h0
        have := congrArg List.length h0
        rw [List.length_drop, List.length_nil] at this
        omega
      · rw [readStream, ht _ (by omega), h3, List.length_take, Nat.min_eq_left (by omega)]
  | step k n h1 h2 h3 _ ih =>
    cases fuel with
    | zero => omega
    | succ fuel =>
      rw [readStream, ht _ (by omega), h1]
      simp only
      rw [if_pos (by rw [List.length_append]; omega)]
      exact ih fuel (by omega)

/-- A reader of a program whose first part gives a value and whose second part has a final answer to no octets at all. -/
theorem readStream_first {p : Bytes → IRes E α} {f : α → Bytes → IRes E β} {p1 : Bytes} {a : α} (hr : Reads p p1 a)
    (rest : Bytes) {e : E} (hx : f a [] = .err (.error e)) {k : Nat} (h : Fetch p p1 k) (fuel : Nat)
    (hf : p1.length < fuel + k) :
    readStream (fun i => p i >>? fun r => f r.2 r.1) (p1 ++ rest) fuel k = some (.err (.error e), p1.length) ∨
      ∃ q s, p1 = q ++ s ∧ s ≠ [] ∧ CutInTag q ∧
        readStream (fun i => p i >>? fun r => f r.2 r.1) (p1 ++ rest) fuel k =
          some (.err (.error (ParseErr.ofBer .invalidTag)), q.length) := by
  have ht : ∀ k, k ≤ p1.length → (p1 ++ rest).take k = p1.take k := fun k hk => List.take_append_of_le_length hk
  induction h generalizing fuel with
  | done =>
    cases fuel with
    | zero => omega
    | succ fuel =>
      refine .inl ?_
      have := hr []
      rw [List.append_nil] at this
      rw [readStream, ht _ (Nat.le_refl _), List.take_length, this]
      simp only [ok_bind, hx]
  | tag k h1 h2 h3 =>
    cases fuel with
    | zero => omega
    | succ fuel =>
      refine .inr ⟨p1.take k, p1.drop k, (List.take_append_drop k p1).symm, ?_, h2, ?_⟩
      · intro h0
        have := congrArg List.length h0
        rw [List.length_drop, List.length_nil] at this
        omega
      · rw [readStream, ht _ (by omega), h3, List.length_take, Nat.min_eq_left (by omega)]
        rfl
  | step k n h1 h2 h3 _ ih =>
    cases fuel with
    | zero => omega
    | succ fuel =>
      rw [readStream, ht _ (by omega), h1]
      simp only [err_bind]
      rw [if_pos (by rw [List.length_append]; omega)]
      exact ih fuel (by omega)

theorem definedG_container {O : Type} (R : Rules) (tag : Nat) (f : Bytes → Header → IRes E O) :
    ∃ g : Bytes → Header → IRes E O, definedG R tag f = container R g := ⟨_, rfl⟩

theorem explicitG_container {O : Type} (R : Rules) (tag : Nat) (f : Bytes → Header → IRes E O) :
    ∃ g : Bytes → Header → IRes E O, taggedExplicitG R tag f = container R g := ⟨_, rfl⟩

theorem implicitG_container {O : Type} (R : Rules) (tag : Nat) (f : Bytes → Header → Nat → IRes E O) :
    ∃ g : Bytes → Header → IRes E O, taggedImplicitG R tag f = container R g := ⟨_, rfl⟩

theorem ofV_container {T : Type} (R : Rules) (tag : Nat) (f : Bytes → IRes E T) :
    ∃ g : Bytes → Header → IRes E (List T), ofV R tag f = container R g := definedG_container R tag _

theorem framing_container (D : Deps) (p : Prog E α) (R : Rules) (h : p.framing = some R) :
    ∃ f : Bytes → Header → IRes E α, p.run D = container R f := by
  cases p with
  | container R f => cases h; exact ⟨_, rfl⟩
  | defined R tag f => cases h; exact definedG_container R tag _
  | explicit R tag f => cases h; exact explicitG_container R tag _
  | implicit R tag f => cases h; exact implicitG_container R tag _
  | several R tag p => cases h; exact ofV_container R tag _
  | _ => cases h

/-- The header read by `container`. -/
def headOf (E : Type) [ParseErr E] (R : Rules) (i : Bytes) : IRes E Header := convertErr (frameHeader R i)

/-- The rest of `container`. -/
def insideOf {O : Type} (R : Rules) (f : Bytes → Header → IRes E O) (h : Header) (i : Bytes) : IRes E O :=
  frameContent R h i >>? fun s => f s.2 h >>? fun v => .ok (s.1, v.2)

theorem container_eq {O : Type} (R : Rules) (f : Bytes → Header → IRes E O) :
    container R f = fun i => headOf E R i >>? fun r => insideOf R f r.2 r.1 := by
  funext i
  unfold container headOf insideOf
  rw [frame_eq]
  simp only [bind_assoc', ok_bind]

theorem local_headOf (R : Rules) : Local (headOf E R) := (local_frameHeader R).mapErr _

theorem reads_headOf {R : Rules} {hb : Bytes} {h : Header} : Reads (headOf E R) hb h ↔ HeaderBy R hb h := by
  rw [show Reads (headOf E R) hb h ↔ Reads (frameHeader R) hb h from reads_convertErr]
  constructor
  · intro H
    obtain ⟨hb', e, H⟩ := headerBy_iff.1 (H [])
    rw [List.append_nil, List.append_nil] at e
    rw [e]
    exact H
  · exact fun H x => headerBy_iff.2 ⟨hb, rfl, H⟩

theorem fetch_headOf {R : Rules} {hb : Bytes} {h : Header} (H : HeaderBy R hb h) : Fetch (headOf E R) hb 0 :=
  fetch_convertErr ((truncOk_frameHeader R).feeds hb h fun _ => headerBy_iff.2 ⟨hb, rfl, H⟩)

/-! ## C126 -/

/-- C126: if a program accepts octets, it accepts no proper beginning of the octets it has read, nor does it panic or loop
on one: it gives one of the answers to octets that end too early.  For all programs that ask about absence and the end of
the input only inside containers; nothing is asked of the code of the user. -/
theorem C126_truncated (D : Deps) (hD : TimesKnown D) (p : Prog E α) (hp : p.Plain) (q s rem : Bytes) (a : α)
    (h : p.run D (q ++ s) = .ok (rem, a)) (hs : rem.length < s.length) :
    ∃ x, p.run D q = .err x ∧ p.Truncated D q x := by
  obtain ⟨pre, e, hr⟩ := prog_local D p hp _ _ _ h
  have hl := congrArg List.length e
  rw [List.length_append, List.length_append] at hl
  have h1 : s = s.take (s.length - rem.length) ++ rem := by
    rw [List.append_eq_append_iff] at e
    rcases e with ⟨c, rfl, rfl⟩ | ⟨c, rfl, rfl⟩
    · rw [List.length_append, Nat.add_sub_cancel, List.take_left]
    · rw [List.length_append] at hs
      omega
  have h2 : pre = q ++ s.take (s.length - rem.length) := by
    rw [h1, ← List.append_assoc] at e
    exact (List.append_cancel_right e).symm
  refine prog_cutBy D hD p hp pre a hr q _ h2 ?_
  intro h0
  rw [h0, List.nil_append] at h1
  rw [h1] at hs
  omega

/-- The program for a version and wrapped numbers, two octets short. -/
example := C126_truncated Tests.D0 timesKnown_D0 wrappedProg trivial
  [0x30, 0x0d, 0x02, 0x01, 0x01, 0x04, 0x08, 0x30, 0x06, 0x02, 0x01, 0x07, 0x02] [0x01, 0x09, 0xff] [0xff] [7, 9] rfl (by decide)

/-- C126: the octets that a program accepts to the end are free of prefixes: none of them is a proper beginning of
another. -/
theorem C126_prefix_free (D : Deps) (hD : TimesKnown D) (p : Prog E α) (hp : p.Plain) (q s : Bytes) (a b : α)
    (h1 : p.run D q = .ok ([], a)) (h2 : p.run D (q ++ s) = .ok ([], b)) : s = [] ∧ a = b := by
  by_cases hs : s = []
  · subst hs
    rw [List.append_nil, h1] at h2
    simpa using h2
  · obtain ⟨x, h, _⟩ := C126_truncated D hD p hp q s [] b h2 (by simpa using List.length_pos_iff.2 hs)
    rw [h1] at h
    cases h

example := C126_prefix_free Tests.D0 timesKnown_D0 wrappedProg trivial
  [0x30, 0x0d, 0x02, 0x01, 0x01, 0x04, 0x08, 0x30, 0x06, 0x02, 0x01, 0x07, 0x02, 0x01, 0x09] [] [7, 9] [7, 9] rfl rfl

/-- Two numbers. -/
def twoNumbers : Prog BerError (Nat × Int) :=
  .bind (.prim (.uint .der .w32)) fun n => .map (fun m => (n, m)) (.prim (.int .ber .w64))

theorem twoNumbers_streaming : twoNumbers.Streaming := ⟨trivial, fun _ => ⟨trivial, fun _ => trivial⟩⟩
theorem twoNumbers_sharp : twoNumbers.Sharp := ⟨trivial, fun _ => ⟨trivial, fun _ => trivial⟩⟩

/-- C126: a program for streams answers octets that end too early with a request for more, or with the error for an invalid
tag if they end inside a tag number. -/
theorem C126_streaming (D : Deps) (hD : TimesKnown D) (p : Prog E α) (hp : p.Streaming) (q s rem : Bytes) (a : α)
    (h : p.run D (q ++ s) = .ok (rem, a)) (hs : rem.length < s.length) :
    (∃ n, 1 ≤ n ∧ p.run D q = .err (.incomplete (.size n))) ∨
      (CutInTag q ∧ p.run D q = .err (.error (ParseErr.ofBer .invalidTag))) := by
  obtain ⟨x, h1, h2⟩ := C126_truncated D hD p (streaming_plain p hp) q s rem a h hs
  have key : ∀ {β : Type} (p : Prog E β) (q : Bytes), p.Streaming → p.Truncated D q x → Unfinished q x := by
    intro β p
    induction p with
    | bind p f ihp ihf =>
      rintro q hp (h | ⟨rem, a, h, h'⟩)
      · exact ihp q hp.1 h
      · obtain ⟨pre, rfl⟩ := C118_suffix D p q rem a ((C119_accepts D hD p q rem a).2 h)
        exact Unfinished.prepend (ihf a rem (hp.2 a) h') pre
    | value x => exact fun _ _ h => h.elim
    | within b p _ => exact fun _ _ h => h.elim
    | prim p => cases p <;> first | exact fun _ _ h => h | exact fun _ h => h.elim
    | _ => exact fun _ h => h.elim
  cases key p q hp h2 with
  | more n hn => exact .inl ⟨n, hn, h1⟩
  | tag ht => exact .inr ⟨ht, h1⟩

example := C126_streaming Tests.D0 timesKnown_D0 twoNumbers twoNumbers_streaming [0x02, 0x01, 0x05, 0x02]
  [0x01, 0x06, 0xff] [0xff] (5, 6) rfl (by decide)

/-- C126: a reader that starts with nothing and always fetches the octets that it is asked for has fetched exactly the
octets of the value when it gets the value; it never waits for octets that the program does not need.  Or it is stopped
inside a tag number.  For every program for streams, BER and DER. -/
theorem C126_read (D : Deps) (p : Prog E α) (hp : p.Streaming) (e rest : Bytes) (a : α)
    (h : p.run D (e ++ rest) = .ok (rest, a)) (fuel : Nat) (hf : e.length < fuel) :
    readStream (p.run D) (e ++ rest) fuel 0 = some (.ok ([], a), e.length) ∨
      ∃ q s, e = q ++ s ∧ s ≠ [] ∧ CutInTag q ∧
        readStream (p.run D) (e ++ rest) fuel 0 = some (.err (.error (ParseErr.ofBer .invalidTag)), q.length) := by
  obtain ⟨pre, e', hr⟩ := prog_local D p (streaming_plain p hp) _ _ _ h
  obtain rfl := List.append_cancel_right e'
  exact readStream_fetch hr rest (prog_feeds D p hp _ _ hr) fuel (by omega)

example (D : Deps) := C126_read D twoNumbers twoNumbers_streaming [0x02, 0x01, 0x05, 0x02, 0x01, 0x06] [0xff] (5, 6) rfl 7 (by decide)

/-- C126: if the requests of the program are sharp, the same holds for a reader that has any number of the octets to
begin with. -/
theorem C126_read_from (D : Deps) (p : Prog E α) (hp : p.Sharp) (e rest : Bytes) (a : α)
    (h : p.run D (e ++ rest) = .ok (rest, a)) (k : Nat) (hk : k ≤ e.length) (fuel : Nat) (hf : e.length < fuel + k) :
    readStream (p.run D) (e ++ rest) fuel k = some (.ok ([], a), e.length) ∨
      ∃ q s, e = q ++ s ∧ s ≠ [] ∧ CutInTag q ∧
        readStream (p.run D) (e ++ rest) fuel k = some (.err (.error (ParseErr.ofBer .invalidTag)), q.length) := by
  obtain ⟨pre, e', hr⟩ := prog_local D p (streaming_plain p (sharp_streaming p hp)) _ _ _ h
  obtain rfl := List.append_cancel_right e'
  exact readStream_fetch hr rest (prog_fetch D p hp hr k hk) fuel hf

example (D : Deps) := C126_read_from D twoNumbers twoNumbers_sharp [0x02, 0x01, 0x05, 0x02, 0x01, 0x06] [0xff] (5, 6) rfl
  4 (by decide) 3 (by decide)

/-- C126: and then a request is never larger than what is missing. -/
theorem C126_hint (D : Deps) (p : Prog E α) (hp : p.Sharp) (q s rem : Bytes) (a : α) (n : Nat)
    (h : p.run D (q ++ s) = .ok (rem, a)) (hq : p.run D q = .err (.incomplete (.size n))) :
    n + rem.length ≤ s.length := by
  obtain ⟨pre, e, hr⟩ := prog_local D p (streaming_plain p (sharp_streaming p hp)) _ _ _ h
  have hl := congrArg List.length e
  rw [List.length_append, List.length_append] at hl
  rw [List.append_eq_append_iff] at e
  rcases e with ⟨c, rfl, rfl⟩ | ⟨c, rfl, rfl⟩
  · have hf := prog_fetch D p hp hr q.length (by rw [List.length_append]; omega)
    generalize hk : q.length = k at hf
    have ht : (q ++ c).take k = q := by rw [← hk, List.take_left]
    rw [List.length_append]
    cases hf with
    | done =>
      have := hr []
      have hc : c = [] := by
        rw [List.length_append] at hk
        exact List.length_eq_zero_iff.1 (by omega)
      subst hc
      rw [List.append_nil, List.append_nil, hq] at this
      cases this
    | tag _ _ _ h3 =>
      rw [ht, hq] at h3
      cases h3
    | step _ m h1 _ h3 _ =>
      rw [ht, hq] at h1
      simp only [err.injEq, NomErr.incomplete.injEq, Needed.size.injEq] at h1
      rw [List.length_append] at h3
      omega
  · rw [hr c] at hq
    cases hq

example (D : Deps) := C126_hint D twoNumbers twoNumbers_sharp [0x02, 0x01, 0x05, 0x02, 0x02] [0x01, 0x06, 0xff] [0xff] (5, 262) _
  rfl rfl

/-- C126: no function that hands the contents to a closure can be used by such a reader on an element of known length
that has contents, whatever the closure does: after the header it is told that the input is wrong (or it is stopped inside
the tag number). -/
theorem C126_container (D : Deps) (p : Prog E α) (R : Rules) (hp : p.framing = some R) (hb rest : Bytes) (h : Header)
    (l : Nat) (H : HeaderBy R hb h) (hl : h.length = .definite l) (hpos : 0 < l) (fuel : Nat) (hf : hb.length < fuel) :
    readStream (p.run D) (hb ++ rest) fuel 0 = some (.err (.error (ParseErr.ofKind [] .eof)), hb.length) ∨
      ∃ q s, hb = q ++ s ∧ s ≠ [] ∧ CutInTag q ∧
        readStream (p.run D) (hb ++ rest) fuel 0 = some (.err (.error (ParseErr.ofBer .invalidTag)), q.length) := by
  obtain ⟨f, hf'⟩ := framing_container D p R hp
  rw [hf', container_eq]
  refine readStream_first (E := E) (reads_headOf.2 H) rest ?_ (fetch_headOf H) fuel (by omega)
  have : (frameContent R h [] : IRes E Bytes) = .err (.error (ParseErr.ofKind [] .eof)) := by
    cases R <;> simp only [frameContent, hl, takeComplete, List.length_nil, if_pos hpos]
  simp only [insideOf, this, err_bind]

example (D : Deps) := C126_container D wrappedProg .der rfl [0x30, 0x0d] [0x02, 0x01, 0x01] _ 13 (derHeader_read rfl) rfl
  (by decide) 3 (by decide)

/-- C126: with an indefinite length all of them can be used. -/
theorem C126_indefinite (D : Deps) (p : Prog E α) (hp : p.framing = some .ber) (e rest c : Bytes) (h : Header) (a : α)
    (H : Framed 50 e h c) (hl : h.length = .indefinite) (hr : p.run D (e ++ rest) = .ok (rest, a)) (fuel : Nat)
    (hf : e.length < fuel) :
    readStream (p.run D) (e ++ rest) fuel 0 = some (.ok ([], a), e.length) ∨
      ∃ q s, e = q ++ s ∧ s ≠ [] ∧ CutInTag q ∧
        readStream (p.run D) (e ++ rest) fuel 0 = some (.err (.error (ParseErr.ofBer .invalidTag)), q.length) := by
  have hloc : Local (p.run D) := by
    obtain ⟨f, hf'⟩ := framing_container D p .ber hp
    rw [hf']
    exact local_container _ _
  obtain ⟨pre, e', hr⟩ := hloc _ _ _ hr
  obtain rfl := List.append_cancel_right e'
  refine readStream_fetch hr rest ?_ fuel (by omega)
  obtain ⟨f, hf'⟩ := framing_container D p .ber hp
  rw [hf', container_eq] at hr ⊢
  obtain ⟨p1, p2, h', rfl, h1, h2⟩ := reads_bind_inv (local_headOf .ber) hr
  obtain rfl : h' = h := by
    have g1 := (anyFromBer_framed (i := p1 ++ p2) (rem := []) (a := ⟨h, c⟩)).2 ⟨_, by simp, H⟩
    obtain ⟨i1, g2, _⟩ := anyFromBer_ok g1
    have g3 : headerFromBer (p1 ++ p2) = .ok (p2, h') := headerFromBer_iff.2 ⟨p1, rfl, reads_headOf.1 h1⟩
    rw [g3] at g2
    simp only [ok.injEq, Prod.mk.injEq] at g2
    exact g2.2
  refine fetch_first h1 ?_ (fetch_headOf (reads_headOf.1 h1))
  have hcont : insideOf .ber f h' = fun i => (fun i => (convertErr (getObjectContent maxRecursion h' i) : IRes E Bytes)) i
      >>? fun r => (fun s i => f s h' >>? fun v => .ok (i, v.2)) r.2 r.1 := by
    funext i
    simp only [insideOf, frameContent, hl]
  rw [hcont] at h2 ⊢
  exact Feeds.bind (p := fun i => (convertErr (getObjectContent maxRecursion h' i) : IRes E Bytes))
    (f := fun s i => f s h' >>? fun v => .ok (i, v.2)) ((local_getObjectContent maxRecursion h').mapErr _)
    (fun pre a hr => fetch_convertErr ((truncOk_getObjectContent maxRecursion h').feeds pre a (reads_convertErr.1 hr)))
    (fun s => Feeds.guard (f := fun (v : Bytes × α) i => .ok (i, v.2)) fun v _ => Feeds.ok v.2) _ _ h2

/-- The numbers of a SEQUENCE of indefinite length. -/
example (D : Deps) := C126_indefinite (E := BerError) D (.several .ber 16 (.prim (.uint .ber .w32))) rfl
  [0x30, 0x80, 0x02, 0x01, 0x05, 0, 0] [9] _ _ [5] (framed_read rfl) rfl rfl 8 (by decide)

/-- An example of both: the SEQUENCE with one INTEGER `30 03 02 01 05` is accepted, but refused to a reader that starts with
nothing; with an indefinite length it is read. -/
theorem C126_container_counterexample (D : Deps) :
    (Prog.defined .ber 16 fun _ => .prim (.uint .ber .w32) : Prog BerError Nat).run D [0x30, 0x03, 0x02, 0x01, 0x05] =
        .ok ([], 5) ∧
      readStream ((Prog.defined .ber 16 fun _ => .prim (.uint .ber .w32) : Prog BerError Nat).run D)
        [0x30, 0x03, 0x02, 0x01, 0x05] 6 0 = some (.err (.error (.nomError .eof)), 2) ∧
      readStream ((Prog.defined .ber 16 fun _ => .prim (.uint .ber .w32) : Prog BerError Nat).run D)
        [0x30, 0x80, 0x02, 0x01, 0x05, 0x00, 0x00] 8 0 = some (.ok ([], 5), 7) := ⟨rfl, rfl, rfl⟩

/-- C126 is false for a program that is not sharp and a reader that has some of the octets to begin with: with three
octets of `04 02 aa bb` it is asked for two more, and at the end of the stream it has nothing although the octets were
all there. -/
theorem C126_chunk_counterexample (D : Deps) :
    (Prog.prim (.typed .ber 4) : Prog BerError BerObject).run D [0x04, 0x02, 0xaa, 0xbb] =
        .ok ([], .mk ⟨.universal, false, 4, .definite 2, some [4]⟩ (.octetString [0xaa, 0xbb])) ∧
      (∀ fuel, readStream ((Prog.prim (.typed .ber 4) : Prog BerError BerObject).run D) [0x04, 0x02, 0xaa, 0xbb] fuel 3 =
        none) := ⟨rfl, fun fuel => by cases fuel <;> rfl⟩

/-- C126 is false for a program that asks about absence outside of a container: an optional BOOLEAN accepts `01 01 ff`, and
its beginning `01 01` as well, as absence. -/
theorem C126_absence_counterexample (D : Deps) :
    (Prog.attempt (.prim (.typed .ber 1)) : Prog BerError (Option BerObject)).run D [0x01, 0x01] = .ok ([0x01, 0x01], none) ∧
      (Prog.attempt (.prim (.typed .ber 1)) : Prog BerError (Option BerObject)).run D [0x01, 0x01, 0xff] =
        .ok ([], some (.mk ⟨.universal, false, 1, .definite 1, some [1]⟩ (.boolean true))) := ⟨rfl, rfl⟩

/-! Examples: the hypotheses are met. -/

/-- So many OCTET STRINGs. -/
def octetStrings : Nat → Prog BerError (List BerObject)
  | 0 => .pure []
  | n + 1 => .bind (.prim (.typed .der 4)) fun o => .map (o :: ·) (octetStrings n)

/-- A header, and then as many values as its tag number says: a program whose calls depend on the octets before. -/
def countedProg : Prog BerError (List BerObject) := .bind (.prim (.header .ber)) fun h => octetStrings h.tag

example : countedProg.Streaming := by
  have h : ∀ n, (octetStrings n).Streaming := by
    intro n
    induction n with
    | zero => trivial
    | succ n ih => exact ⟨trivial, fun o => ⟨ih, fun _ => trivial⟩⟩
  exact ⟨trivial, fun hd => h hd.tag⟩

/-- Two OCTET STRINGs after the tag number 2; requests of one, one, one, one, one, one, one and two octets. -/
example (D : Deps) : readStream (countedProg.run D) [0x42, 0x00, 0x04, 0x01, 0xaa, 0x04, 0x02, 0xbb, 0xcc, 0xff] 10 0 =
    some (.ok ([], [.mk ⟨.universal, false, 4, .definite 1, some [4]⟩ (.octetString [0xaa]),
      .mk ⟨.universal, false, 4, .definite 2, some [4]⟩ (.octetString [0xbb, 0xcc])]), 9) := rfl

/-- Two integers, the second of the kind that the first says. -/
example : (Prog.bind (.prim (.uint .der .w32)) fun n => if n = 0 then Prog.prim (.int .ber .w64) else
    .map Int.ofNat (.prim (.uint .der .w64)) : Prog BerError Int).Sharp :=
  ⟨trivial, fun n => by
    by_cases h : n = 0
    · simp only [if_pos h]; trivial
    · simp only [if_neg h]; exact ⟨trivial, fun _ => trivial⟩⟩

end Verif
