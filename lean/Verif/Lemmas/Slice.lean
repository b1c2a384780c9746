import Verif.SpecPlace
/-!
# The parsers on slices do what the parsers on lists of octets do
-/
namespace Verif.Lemmas
open Outcome Spec

/-- Both calls end in the same way, and the values are related when they succeed. -/
def Sim {ε α β : Type} (P : α → β → Prop) : Outcome ε α → Outcome ε β → Prop
  | .ok a, .ok b => P a b
  | .err e, .err e' => e = e'
  | .panic, .panic => True
  | .diverge, .diverge => True
  | _, _ => False

theorem Sim.bind {ε α β α' β' : Type} {P : α → β → Prop} {Q : α' → β' → Prop}
    {x : Outcome ε α} {y : Outcome ε β} {f : α → Outcome ε α'} {g : β → Outcome ε β'}
    (h : Sim P x y) (hf : ∀ a b, P a b → Sim Q (f a) (g b)) : Sim Q (x >>? f) (y >>? g) := by
  cases x <;> cases y <;> simp_all [Sim]

/-- The same call on both sides. -/
theorem Sim.bind_same {ε α α' β' : Type} {Q : α' → β' → Prop}
    {x : Outcome ε α} {f : α → Outcome ε α'} {g : α → Outcome ε β'}
    (hf : ∀ a, x = .ok a → Sim Q (f a) (g a)) : Sim Q (x >>? f) (x >>? g) := by
  cases x <;> simp_all [Sim]

theorem Sim.mono {ε α β : Type} {P Q : α → β → Prop} {x : Outcome ε α} {y : Outcome ε β}
    (h : Sim P x y) (hPQ : ∀ a b, P a b → Q a b) : Sim Q x y := by
  cases x <;> cases y <;> simp_all [Sim]

theorem Sim.mapErr {ε ε' α β : Type} {P : α → β → Prop} {x : Outcome ε α} {y : Outcome ε β}
    (k : ε → ε') (h : Sim P x y) : Sim P (x.mapErr k) (y.mapErr k) := by
  cases x <;> cases y <;> simp_all [Sim]

theorem Sim.map {ε α β α' β' : Type} {P : α → β → Prop} {Q : α' → β' → Prop}
    {x : Outcome ε α} {y : Outcome ε β} {f : α → α'} {g : β → β'}
    (h : Sim P x y) (hf : ∀ a b, P a b → Q (f a) (g b)) : Sim Q (x.map f) (y.map g) := by
  cases x <;> cases y <;> simp_all [Sim]

/-- A map on both sides of the same call. -/
theorem Sim.map_same {ε α α' β' : Type} {Q : α' → β' → Prop} {x : Outcome ε α} {f : α → α'}
    {g : α → β'} (hf : ∀ a, x = .ok a → Q (f a) (g a)) : Sim Q (x.map f) (x.map g) := by
  cases x <;> simp_all [Sim]

theorem Sim.eq {ε α β : Type} {f : α → β} {x : Outcome ε α} {y : Outcome ε β}
    {P : α → β → Prop} (h : Sim P x y) (hf : ∀ a b, P a b → f a = b) : x.map f = y := by
  cases x <;> cases y <;> simp only [Sim] at h <;>
    first | exact congrArg Outcome.ok (hf _ _ h) | simp_all

theorem Sim.ok {ε α β : Type} {P : α → β → Prop} {x : Outcome ε α} {y : Outcome ε β} {a : α}
    (h : Sim P x y) (hx : x = .ok a) : ∃ b, y = .ok b ∧ P a b := by
  cases y <;> simp_all [Sim]

/-! ## Slices -/

theorem read_length {mem : Bytes} {s : Slice} (h : InMemory mem s) :
    (s.read mem).length = s.len := by
  simp only [InMemory] at h
  simp only [Slice.read, List.length_take, List.length_drop]; omega

theorem read_first {mem : Bytes} {s : Slice} {n : Nat} (h : n ≤ s.len) :
    (Slice.mk s.off n).read mem = (s.read mem).take n := by
  simp [Slice.read, List.take_take, Nat.min_eq_left h]

theorem read_second {mem : Bytes} {s : Slice} {n : Nat} :
    (Slice.mk (s.off + n) (s.len - n)).read mem = (s.read mem).drop n := by
  simp [Slice.read, List.drop_take]

/-- `r` is what is left of `s`. -/
def Tail (s r : Slice) : Prop := s.off ≤ r.off ∧ r.off + r.len = s.off + s.len

theorem Tail.refl (s : Slice) : Tail s s := ⟨Nat.le_refl _, rfl⟩

theorem Tail.trans {s r t : Slice} (h : Tail s r) (h' : Tail r t) : Tail s t := by
  simp only [Tail] at *; omega

theorem Tail.inMemory {mem : Bytes} {s r : Slice} (h : Tail s r) (hs : InMemory mem s) :
    InMemory mem r := by
  simp only [Tail, InMemory] at *; omega

theorem take_sim {E : Type} {mem : Bytes} {s : Slice} (hs : InMemory mem s) (n : Nat) :
    Sim (fun a b => a.1.read mem = b.1 ∧ a.2.read mem = b.2 ∧ Tail s a.1 ∧
        a.2 = ⟨s.off, n⟩ ∧ a.1.off = s.off + n ∧ n ≤ s.len)
      (s.take n : Outcome (NomErr E) (Slice × Slice)) (takeStreaming n (s.read mem)) := by
  simp only [Slice.take, takeStreaming, read_length hs]
  by_cases h : s.len < n
  · simp [h, Sim]
  · have h : n ≤ s.len := by omega
    simp only [Nat.not_lt.mpr h, if_false, Sim, read_second, read_first h, Tail, true_and]
    omega

/-! ## Headers -/

theorem tagLoop_count {bs : Bytes} : ∀ {count c : Nat} {r : Nat × Nat},
    tagLoop bs count c = .ok r → count < r.2 ∧ r.2 ≤ count + bs.length := by
  induction bs with
  | nil => intro count c r h; simp [tagLoop] at h
  | cons b bs ih =>
    intro count c r h
    simp only [tagLoop] at h
    split at h
    · simp at h
    · split at h
      · simp only [Outcome.ok.injEq] at h; subst h; simp
      · have := ih h; simp only [List.length_cons]; omega

/-- What the two readings of identifier octets have in common. -/
def IdentRel (mem : Bytes) (s : Slice) (a : Slice × SIdent) (b : Bytes × Ident) : Prop :=
  a.1.read mem = b.1 ∧ Tail s a.1 ∧ a.2.cls = b.2.cls ∧ a.2.constructed = b.2.constructed ∧
  a.2.tag = b.2.tag ∧ a.2.raw.read mem = b.2.raw ∧ a.2.raw.off = s.off ∧ 0 < a.2.raw.len ∧
  s.off + a.2.raw.len = a.1.off

theorem ident_sim {mem : Bytes} {s : Slice} (hs : InMemory mem s) :
    Sim (IdentRel mem s) (sParseIdentifier mem s) (parseIdentifier (s.read mem)) := by
  have hl := read_length hs
  simp only [sParseIdentifier, parseIdentifier]
  cases hb : s.read mem with
  | nil => simp [Sim]
  | cons b rest =>
    rw [hb] at hl
    simp only [List.length_cons] at hl
    have key : ∀ k, 0 < k → k ≤ s.len → ∀ (ε : Type), ∃ p, (s.splitAt k : Outcome ε _) = .ok p ∧
        p.2.read mem = (s.read mem).drop k ∧ Tail s p.2 ∧ p.1.read mem = (s.read mem).take k ∧
        p.1.off = s.off ∧ 0 < p.1.len ∧ s.off + p.1.len = p.2.off := by
      intro k hk hk' ε
      refine ⟨(⟨s.off, k⟩, ⟨s.off + k, s.len - k⟩),
        by simp only [Slice.splitAt, Nat.not_lt.mpr hk', if_false], read_second, ?_,
        read_first hk', rfl, hk, rfl⟩
      simp only [Tail]; omega
    simp only
    by_cases hc : b.toNat % 32 = 31
    · simp only [hc, if_true]
      refine Sim.bind_same fun r hr => ?_
      have hk := tagLoop_count hr
      obtain ⟨p, hp, h1, h2, h3, h4, h5, h6⟩ := key r.2 (by omega) (by omega) (NomErr BerError)
      simp only [hp, ok_bind, Sim, IdentRel, ← hb]
      exact ⟨h1, h2, by trivial, by trivial, by trivial, h3, h4, h5, h6⟩
    · obtain ⟨p, hp, h1, h2, h3, h4, h5, h6⟩ := key 1 (by omega) (by omega) (NomErr BerError)
      simp only [hc, if_false, ok_bind, hp, Sim, IdentRel]
      rw [hb] at h1 h3
      exact ⟨by simpa using h1, h2, by trivial, by trivial, by trivial, by simpa using h3, h4, h5, h6⟩

/-- The remainder begins behind at least one octet. -/
def LengthRel (mem : Bytes) (s : Slice) (a : Slice × Length) (b : Bytes × Length) : Prop :=
  a.1.read mem = b.1 ∧ Tail s a.1 ∧ a.2 = b.2 ∧ s.off < a.1.off

theorem length_sim {mem : Bytes} {s : Slice} (hs : InMemory mem s)
    (onIndef : Outcome (NomErr BerError) Length) :
    Sim (LengthRel mem s) (sParseLength onIndef mem s) (parseLength onIndef (s.read mem)) := by
  have hl := read_length hs
  simp only [sParseLength, parseLength]
  cases hb : s.read mem with
  | nil => simp [Sim]
  | cons b rest =>
    rw [hb] at hl
    simp only [List.length_cons] at hl
    have h1 : ¬ s.len < 1 := by omega
    have hrest : (Slice.mk (s.off + 1) (s.len - 1)).read mem = rest := by
      rw [read_second, hb]; rfl
    have ht : Tail s ⟨s.off + 1, s.len - 1⟩ := by simp only [Tail]; omega
    have hm := ht.inMemory hs
    simp only [Slice.splitAt, h1, if_false, ok_bind]
    split
    · exact ⟨hrest, ht, rfl, by simp⟩
    · split
      · exact Sim.map_same fun a _ => ⟨hrest, ht, rfl, by simp⟩
      · split
        · simp [Sim]
        · refine Sim.bind (by simpa only [hrest] using take_sim hm (b.toNat % 128)) ?_
          rintro a c ⟨e1, e2, e3, e4, e5, e6⟩
          rw [e2]
          cases bytesToU64 0 c.2 with
          | none => simp [Sim]
          | some n => exact ⟨e1, ht.trans e3, rfl, by simp only at e5 ⊢; omega⟩

/-- What the two readings of a header have in common, and where the octets lie. -/
def HeaderRel (mem : Bytes) (s : Slice) (a : Slice × SHeader) (b : Bytes × Header) : Prop :=
  a.1.read mem = b.1 ∧ Tail s a.1 ∧ a.2.read mem = b.2 ∧
  ∃ k, a.2.rawTag = some ⟨s.off, k⟩ ∧ 0 < k ∧ s.off + k < a.1.off

theorem headerBer_sim {mem : Bytes} {s : Slice} (hs : InMemory mem s) :
    Sim (HeaderRel mem s) (sHeaderFromBer mem s) (headerFromBer (s.read mem)) := by
  refine Sim.bind (ident_sim hs) ?_
  rintro a b ⟨h1, h2, h3, h4, h5, h6, h7, h8, h9⟩
  rw [← h1, ← h4]
  refine Sim.bind (length_sim (h2.inMemory hs) _) ?_
  rintro c d ⟨g1, g2, g3, g4⟩
  refine ⟨g1, h2.trans g2, ?_, a.2.raw.len, ?_, h8, by simp only; omega⟩
  · simp [SHeader.read, h3, h5, h6, g3]
  · simp only [← h7]

theorem headerDer_sim {mem : Bytes} {s : Slice} (hs : InMemory mem s) :
    Sim (HeaderRel mem s) (sHeaderFromDer mem s) (headerFromDer (s.read mem)) := by
  refine Sim.bind (ident_sim hs) ?_
  rintro a b ⟨h1, h2, h3, h4, h5, h6, h7, h8, h9⟩
  rw [← h1]
  refine Sim.bind (length_sim (h2.inMemory hs) _) ?_
  rintro c d ⟨g1, g2, g3, g4⟩
  refine ⟨g1, h2.trans g2, ?_, a.2.raw.len, ?_, h8, by simp only; omega⟩
  · simp [SHeader.read, h3, h4, h5, h6, g3]
  · simp only [← h7]

/-! ## Contents -/

/-- What the two ways to skip have in common; a definite length is the distance skipped. -/
def SkipRel (mem : Bytes) (len : Length) (s : Slice) (a : Slice × Bool) (b : Bytes × Bool) : Prop :=
  a.1.read mem = b.1 ∧ Tail s a.1 ∧ a.2 = b.2 ∧ ∀ l, len = .definite l → a.1.off = s.off + l

theorem skipLoop_sim {mem : Bytes} {skip : SHeader → Slice → SRes BerError Bool}
    {skip' : Header → Bytes → IRes BerError Bool}
    (hskip : ∀ h s, InMemory mem s →
      Sim (SkipRel mem h.length s) (skip h s) (skip' (h.read mem) (s.read mem))) :
    ∀ (fuel : Nat) {s : Slice}, InMemory mem s →
      Sim (SkipRel mem .indefinite s) (sSkipLoop mem skip fuel s)
        (skipLoop skip' fuel (s.read mem))
  | 0, _, _ => by simp [sSkipLoop, skipLoop, Sim]
  | fuel + 1, s, hs => by
    refine Sim.bind (headerBer_sim hs) ?_
    rintro a b ⟨h1, h2, h3, -⟩
    rw [← h1, ← h3]
    refine Sim.bind (hskip _ _ (h2.inMemory hs)) ?_
    rintro c d ⟨g1, g2, g3, -⟩
    rw [← g3, ← g1]
    have ht := h2.trans g2
    split
    · exact ⟨rfl, ht, rfl, by simp⟩
    · refine (skipLoop_sim hskip fuel (ht.inMemory hs)).mono ?_
      rintro _ _ ⟨k1, k2, k3, -⟩
      exact ⟨k1, ht.trans k2, k3, by simp⟩

theorem skipContent_sim {mem : Bytes} : ∀ (depth : Nat) (h : SHeader) (s : Slice),
    InMemory mem s → Sim (SkipRel mem h.length s) (sSkipContent mem depth h s)
      (skipContent depth (h.read mem) (s.read mem))
  | 0, _, _, _ => by simp [sSkipContent, skipContent, Sim]
  | depth + 1, h, s, hs => by
    have htg : (h.read mem).tag = h.tag := rfl
    have hln : (h.read mem).length = h.length := rfl
    have hct : (h.read mem).constructed = h.constructed := rfl
    simp only [sSkipContent, skipContent, htg, hln, hct]
    cases hlen : h.length with
    | definite l =>
      simp only
      split
      · rename_i h0
        refine ⟨rfl, Tail.refl s, rfl, ?_⟩
        rintro l' hl'; cases hl'; simp [h0.1]
      · refine Sim.bind (take_sim hs l) ?_
        rintro a b ⟨h1, -, h3, -, h5, -⟩
        refine ⟨h1, h3, rfl, ?_⟩
        rintro l' hl'; cases hl'; exact h5
    | indefinite =>
      simp only [read_length hs]
      split
      · exact skipLoop_sim (skipContent_sim depth) _ hs
      · simp [Sim]

/-- Contents read in both ways, and where they lie. -/
def ContentsRel (mem : Bytes) (len : Length) (s : Slice) (a : Slice × Slice) (b : Bytes × Bytes) :
    Prop :=
  a.1.read mem = b.1 ∧ Tail s a.1 ∧ a.2.read mem = b.2 ∧ a.2.off = s.off ∧
  match len with
  | .definite l => a.2.len = l ∧ a.1.off = s.off + l
  | .indefinite => s.off + a.2.len + 2 = a.1.off

theorem getContent_sim {mem : Bytes} {depth : Nat} {h : SHeader} {s : Slice} (hs : InMemory mem s) :
    Sim (ContentsRel mem h.length s) (sGetObjectContent mem depth h s)
      (getObjectContent depth (h.read mem) (s.read mem)) := by
  refine Sim.bind (skipContent_sim depth h s hs) ?_
  rintro a b ⟨h1, h2, -, h4⟩
  have hb : b.1.length = a.1.len := by rw [← h1, read_length (h2.inMemory hs)]
  have hd : s.len - a.1.len = a.1.off - s.off := by simp only [Tail] at h2; omega
  have ho : ¬ a.1.off < s.off := by simp only [Tail] at h2; omega
  have hn : a.1.off - s.off ≤ s.len := by simp only [Tail] at h2; omega
  have hn' : ¬ s.len < a.1.off - s.off := by omega
  have ht : Tail s ⟨s.off + (a.1.off - s.off), s.len - (a.1.off - s.off)⟩ := by
    simp only [Tail]; omega
  simp only [Slice.offset, ho, if_false, ok_bind, Slice.splitAt, hn', hb, read_length hs, hd,
    List.length_take, Nat.min_eq_left hn]
  cases hlen : h.length with
  | definite l =>
    have := h4 l hlen
    simp only [SHeader.read, hlen, reduceCtorEq, if_false]
    exact ⟨read_second, ht, read_first hn, rfl, by simp only; omega, by simp only; omega⟩
  | indefinite =>
    simp only [SHeader.read, hlen, if_true]
    split
    · simp [Sim]
    · rename_i h2'
      have h3 : ¬ a.1.off - s.off < a.1.off - s.off - 2 := by omega
      simp only [h3, if_false, ok_bind]
      refine ⟨read_second, ht, ?_, rfl, by simp only; omega⟩
      rw [read_first (by omega), List.take_take, Nat.min_eq_left (by omega)]

/-- An `Any` read in both ways, and where it lies. -/
def AnyRel (mem : Bytes) (s : Slice) (a : Slice × SAny) (b : Bytes × Any) : Prop :=
  a.1.read mem = b.1 ∧ a.2.read mem = b.2 ∧ Tail s a.1 ∧ s.off < a.1.off ∧
  InMemory mem a.2.data ∧ FramedAt ⟨s.off, a.1.off - s.off⟩ a.2.header a.2.data

/-- Header and contents make an element. -/
theorem framed_of {mem : Bytes} {s : Slice} {r : Slice} {h : SHeader} {t c : Slice}
    (ht : Tail s r) (hk : ∃ k, h.rawTag = some ⟨s.off, k⟩ ∧ 0 < k ∧ s.off + k < r.off)
    (htt : Tail r t) (hs : InMemory mem s) (hc : c.off = r.off)
    (hlen : match h.length with
      | .definite l => c.len = l ∧ t.off = r.off + l
      | .indefinite => r.off + c.len + 2 = t.off) :
    s.off < t.off ∧ InMemory mem c ∧ FramedAt ⟨s.off, t.off - s.off⟩ h c := by
  obtain ⟨k, hk1, hk2, hk3⟩ := hk
  simp only [Tail] at ht htt
  simp only [InMemory] at *
  cases hl : h.length with
  | definite l =>
    simp only [hl] at hlen
    refine ⟨by omega, by omega, ⟨k, hk1, hk2, by simp only; omega⟩, ?_⟩
    simp only [hl]; omega
  | indefinite =>
    simp only [hl] at hlen
    refine ⟨by omega, by omega, ⟨k, hk1, hk2, by simp only; omega⟩, ?_⟩
    simp only [hl]; omega

theorem any_sim {mem : Bytes} {s : Slice} (hs : InMemory mem s) :
    Sim (AnyRel mem s) (sAnyFromBer mem s) (anyFromBer (s.read mem)) := by
  refine Sim.bind (headerBer_sim hs) ?_
  rintro a b ⟨h1, h2, h3, h4⟩
  rw [← h1, ← h3]
  refine Sim.bind (getContent_sim (h2.inMemory hs)) ?_
  rintro c d ⟨g1, g2, g3, g4, g5⟩
  obtain ⟨f1, f2, f3⟩ := framed_of h2 h4 g2 hs g4 g5
  exact ⟨g1, by simp [SAny.read, g3], h2.trans g2, f1, f2, f3⟩

/-! ## Objects -/

theorem readAll_eq (mem : Bytes) (l : List SObject) :
    SObject.readAll mem l = l.map (SObject.read mem) := by
  induction l with
  | nil => simp [SObject.readAll]
  | cons o l ih => simp [SObject.readAll, ih]

/-- A conversion of an `Any` in both ways: whatever element the `Any` lies in, the object lies
there too. -/
def ObjRel (mem : Bytes) (a : SAny) (o : SObject) (o' : BerObject) : Prop :=
  o.read mem = o' ∧ (∃ x, o = .mk a.header x ∧ ContentAt a.header a.data x)

/-- Contents built without a raw tag can be put behind any header. -/
theorem contentAt_any {h h' : SHeader} {c : Slice} {x : SContent} (hr : h.rawTag = none)
    (hx : ContentAt h c x) : ContentAt h' c x := by
  cases hx with
  | whole hw =>
    refine .whole ?_
    cases x <;> simp only [WholeAt] at hw ⊢ <;> try exact hw
    refine ⟨hw.1, .inr ?_⟩
    rcases hw.2 with e | e
    · rw [e, hr]
    · exact e
  | sequence hm => exact .sequence hm
  | set hm => exact .set hm

theorem items_sim {mem : Bytes} {conv : SAny → Res SObject} {conv' : Any → Res BerObject}
    (hconv : ∀ a, InMemory mem a.data → Sim (ObjRel mem a) (conv a) (conv' (a.read mem))) :
    ∀ (fuel : Nat) {s : Slice}, InMemory mem s →
      Sim (fun l l' => SObject.readAll mem l = l' ∧ MembersAt s l) (sCollectItems mem conv fuel s)
        (collectItems conv' fuel (s.read mem))
  | 0, _, _ => by simp [sCollectItems, collectItems, Sim]
  | fuel + 1, s, hs => by
    have hl := read_length hs
    simp only [sCollectItems, collectItems]
    cases hb : s.read mem with
    | nil =>
      rw [hb] at hl
      simp only [List.length_nil] at hl
      simp only [← hl, if_true]
      refine ⟨by simp [SObject.readAll], ?_⟩
      obtain ⟨off, len⟩ := s
      simp only at hl; subst hl; exact .nil
    | cons x rest =>
      rw [hb] at hl
      simp only [List.length_cons] at hl
      have : s.len ≠ 0 := by omega
      simp only [this, if_false]
      rw [← hb]
      refine Sim.bind ((any_sim hs).mapErr errOfNom) ?_
      rintro a b ⟨h1, h2, h3, h4, h5, h6⟩
      rw [← h1, ← h2]
      refine Sim.bind (hconv _ h5) ?_
      rintro o o' ⟨g1, y, g2, g3⟩
      refine Sim.bind (items_sim hconv fuel (h3.inMemory hs)) ?_
      rintro l l' ⟨k1, k2⟩
      refine ⟨by simp [SObject.readAll, g1, k1], ?_⟩
      obtain ⟨off, len⟩ := s
      obtain ⟨⟨roff, rlen⟩, any⟩ := a
      simp only [Tail] at h3 h4 h6 k2 g2
      have e1 : roff = off + (roff - off) := by omega
      have e2 : len = (roff - off) + rlen := by omega
      rw [e2]
      refine .cons (g2 ▸ .mk h6 g3) ?_
      rw [← e1]; exact k2

theorem content_sim {mem : Bytes} {D : Deps} {conv : SAny → Res SObject}
    {conv' : Any → Res BerObject}
    (hconv : ∀ a, InMemory mem a.data → Sim (ObjRel mem a) (conv a) (conv' (a.read mem)))
    {a : SAny} (ha : InMemory mem a.data) :
    Sim (fun x x' => x.read mem = x' ∧ ContentAt a.header a.data x) (sUniversalContent mem D conv a)
      (universalContent D conv' (a.read mem)) := by
  have hl := read_length ha
  have hct : (a.read mem).header.constructed = a.header.constructed := rfl
  have htg : (a.read mem).header.tag = a.header.tag := rfl
  have hdt : (a.read mem).data = a.data.read mem := rfl
  have hhd : (a.read mem).header = a.header.read mem := rfl
  simp only [sUniversalContent, universalContent, hct, htg, hdt]
  cases uKind a.header.tag <;> simp only
  case bitString =>
    cases hb : a.data.read mem with
    | nil => simp [Sim]
    | cons b rest =>
      rw [hb] at hl
      simp only [List.length_cons] at hl
      simp only
      split
      · simp [Sim]
      · have h1 : ¬ a.data.len < 1 := by omega
        simp only [Slice.splitAt, h1, if_false, ok_bind]
        refine ⟨?_, .whole ⟨by omega, rfl⟩⟩
        simp only [SContent.read, read_second, hb, List.drop_one, List.tail_cons]
  case bmpString =>
    rw [hl]
    split
    · simp [Sim]
    · split
      · simp [Sim]
      · split
        · exact ⟨by simp [SContent.read], .whole rfl⟩
        · simp [Sim]
  case boolean => exact Sim.map_same fun x _ => ⟨by simp [SContent.read], .whole trivial⟩
  case eoc => exact ⟨by simp [SContent.read], .whole trivial⟩
  case enumerated => exact Sim.map_same fun x _ => ⟨by simp [SContent.read], .whole trivial⟩
  case generalizedTime => exact Sim.map_same fun x _ => ⟨by simp [SContent.read], .whole trivial⟩
  case utcTime => exact Sim.map_same fun x _ => ⟨by simp [SContent.read], .whole trivial⟩
  case str k =>
    simp only [strFromAny, hct, hdt]
    split
    · simp [Sim]
    · split
      · split
        · exact ⟨by simp [SContent.read], .whole rfl⟩
        · simp [Sim]
      · simp [Sim]
  case integer => exact ⟨by simp [SContent.read], .whole rfl⟩
  case null => exact ⟨by simp [SContent.read], .whole trivial⟩
  case octetString => exact ⟨by simp [SContent.read], .whole rfl⟩
  case oid => exact ⟨by simp [SContent.read], .whole rfl⟩
  case relativeOid => exact ⟨by simp [SContent.read], .whole rfl⟩
  case sequence =>
    refine Sim.bind_same fun _ _ => ?_
    rw [hl]
    exact Sim.map (items_sim hconv _ ha) fun l l' h => ⟨by simp [SContent.read, h.1], .sequence h.2⟩
  case set =>
    refine Sim.bind_same fun _ _ => ?_
    rw [hl]
    exact Sim.map (items_sim hconv _ ha) fun l l' h => ⟨by simp [SContent.read, h.1], .set h.2⟩
  case universalString =>
    split
    · simp [Sim]
    · exact ⟨by simp [SContent.read], .whole rfl⟩
  case other => exact ⟨by simp [SContent.read, SAny.read, SHeader.read], .whole ⟨rfl, .inl rfl⟩⟩

theorem object_sim {mem : Bytes} {D : Deps} : ∀ (depth : Nat) (a : SAny), InMemory mem a.data →
    Sim (ObjRel mem a) (sObjectFromAny mem D depth a) (objectFromAny D depth (a.read mem))
  | 0, _, _ => by simp [sObjectFromAny, objectFromAny, Sim]
  | depth + 1, a, ha => by
    have h := content_sim (D := D) (object_sim (D := D) depth) ha
    simp only [sObjectFromAny, objectFromAny]
    have hc : (a.read mem).header.cls = a.header.cls := rfl
    rw [hc]
    split
    · exact ⟨by simp [SObject.read, SContent.read, SAny.read], _, rfl, .whole ⟨rfl, .inl rfl⟩⟩
    · refine Sim.map h fun x x' hx => ⟨?_, x, rfl, hx.2⟩
      simp [SObject.read, hx.1, SAny.read]

/-- What all the parsers have in common: the object lies in the element that begins where the
input begins, and the remainder begins where the element ends. -/
def ParseRel (mem : Bytes) (s : Slice) (a : Slice × SObject) (b : Bytes × BerObject) : Prop :=
  a.1.read mem = b.1 ∧ a.2.read mem = b.2 ∧ Tail s a.1 ∧ s.off < a.1.off ∧
  Placed ⟨s.off, a.1.off - s.off⟩ a.2

theorem parseBerRecursive_sim {mem : Bytes} {D : Deps} {n : Nat} {s : Slice}
    (hs : InMemory mem s) :
    Sim (ParseRel mem s) (sParseBerRecursive mem D n s) (parseBerRecursive D n (s.read mem)) := by
  simp only [sParseBerRecursive, parseBerRecursive, parseBerAnyR]
  split
  · simp [Sim]
  · refine Sim.bind (any_sim hs) ?_
    rintro a b ⟨h1, h2, h3, h4, h5, h6⟩
    rw [← h1, ← h2]
    refine Sim.bind ((object_sim n a.2 h5).mapErr _) ?_
    rintro o o' ⟨g1, x, g2, g3⟩
    exact ⟨rfl, g1, h3, h4, g2 ▸ .mk h6 g3⟩

/-- Contents read in both ways by the functions that take tag and length apart. -/
def AsRel (mem : Bytes) (len : Length) (s : Slice) (a : Slice × SContent) (b : Bytes × Content) :
    Prop :=
  a.1.read mem = b.1 ∧ a.2.read mem = b.2 ∧ Tail s a.1 ∧
  ∃ c : Slice, c.off = s.off ∧ (∀ h, ContentAt h c a.2) ∧
    match len with
    | .definite l => c.len = l ∧ a.1.off = s.off + l
    | .indefinite => s.off + c.len + 2 = a.1.off

theorem readAs_sim {mem : Bytes} {D : Deps} {s : Slice} {tag : Nat} {len : Length} {cons : Bool}
    {n : Nat} (hs : InMemory mem s) :
    Sim (AsRel mem len s) (sReadElementContentAs mem D s tag len cons n)
      (berReadElementContentAs D (s.read mem) tag len cons n) := by
  have go : Sim (AsRel mem len s)
      (sGetObjectContent mem n (SHeader.new .universal cons tag len) s >>? fun r =>
        liftRes (sObjectFromAny mem D n ⟨SHeader.new .universal cons tag len, r.2⟩) >>? fun o =>
          .ok (r.1, o.content))
      (getObjectContent n (Header.new .universal cons tag len) (s.read mem) >>? fun r =>
        liftRes (objectFromAny D n ⟨Header.new .universal cons tag len, r.2⟩) >>? fun o =>
          .ok (r.1, o.content)) := by
    refine Sim.bind (getContent_sim (h := SHeader.new .universal cons tag len) hs) ?_
    rintro a b ⟨h1, h2, h3, h4, h5⟩
    have ha : InMemory mem a.2 := by
      simp only [InMemory, Tail] at *
      cases len <;> simp only [SHeader.new] at h5 <;> omega
    have hrd : (SAny.read mem ⟨SHeader.new .universal cons tag len, a.2⟩)
        = ⟨Header.new .universal cons tag len, b.2⟩ := by
      simp [SAny.read, SHeader.read, SHeader.new, Header.new, h3]
    rw [← h1, ← hrd]
    refine Sim.bind ((object_sim n _ ha).mapErr _) ?_
    rintro o o' ⟨g1, x, g2, g3⟩
    subst g2
    refine ⟨rfl, ?_, h2, a.2, h4, fun h => contentAt_any rfl g3, h5⟩
    rw [← g1]; simp [SObject.read, SObject.content]
  simp only [sReadElementContentAs, berReadElementContentAs, read_length hs]
  cases len with
  | definite l =>
    simp only
    split
    · simp [Sim]
    · split
      · simp [Sim]
      · exact go
  | indefinite => exact go

theorem parseBerWithTag_sim {mem : Bytes} {D : Deps} {tag : Nat} {s : Slice}
    (hs : InMemory mem s) :
    Sim (ParseRel mem s) (sParseBerWithTag mem D tag s) (parseBerWithTag D tag (s.read mem)) := by
  refine Sim.bind (headerBer_sim hs) ?_
  rintro a b ⟨h1, h2, h3, h4⟩
  rw [← h1, ← h3]
  refine Sim.bind_same fun _ _ => ?_
  refine Sim.bind (readAs_sim (h2.inMemory hs)) ?_
  rintro c d ⟨g1, g2, g3, e, g4, g5, g6⟩
  obtain ⟨f1, -, f3⟩ := framed_of h2 h4 g3 hs g4 g6
  exact ⟨g1, by simp [SObject.read, g2], h2.trans g3, f1, .mk f3 (g5 _)⟩

/-! ## DER -/

theorem derBits_sim {mem : Bytes} {s : Slice} {l : Nat} (hs : InMemory mem s) :
    Sim (AsRel mem (.definite l) s) (sDerReadContentBitstring mem s l)
      (derReadContentBitstring (s.read mem) l) := by
  have hl := read_length hs
  simp only [sDerReadContentBitstring, derReadContentBitstring]
  cases hb : s.read mem with
  | nil => simp [Sim]
  | cons b rest =>
    rw [hb] at hl
    simp only [List.length_cons] at hl
    have h1 : ¬ s.len < 1 := by omega
    have hrest : (Slice.mk (s.off + 1) (s.len - 1)).read mem = rest := by
      rw [read_second, hb]; rfl
    have ht : Tail s ⟨s.off + 1, s.len - 1⟩ := by simp only [Tail]; omega
    simp only [Slice.splitAt, h1, if_false, ok_bind]
    split
    · simp [Sim]
    · split
      · simp [Sim]
      · refine Sim.bind (by simpa only [hrest] using take_sim (ht.inMemory hs) (l - 1)) ?_
        rintro a c ⟨e1, e2, e3, e4, e5, e6⟩
        have done : AsRel mem (.definite l) s (a.1, .bitString b a.2) (c.1, .bitString b c.2) := by
          refine ⟨e1, by simp [SContent.read, e2], ht.trans e3, ⟨s.off, l⟩, rfl, ?_, rfl, ?_⟩
          · exact fun h => .whole ⟨by simp only; omega, by simp [e4]⟩
          · simp only at e5 ⊢; omega
        split
        · rw [e2]
          cases c.2[l - 2]? with
          | none => simp [Sim]
          | some last =>
            simp only
            split
            · exact done
            · simp [Sim]
        · exact done

theorem derReadAs_sim {mem : Bytes} {D : Deps} {s : Slice} {tag : Nat} {len : Length} {cons : Bool}
    {n : Nat} (hs : InMemory mem s) :
    Sim (AsRel mem len s) (sDerReadElementContentAs mem D s tag len cons n)
      (derReadElementContentAs D (s.read mem) tag len cons n) := by
  simp only [sDerReadElementContentAs, derReadElementContentAs]
  cases len with
  | indefinite => simp [Length.definite?, liftRes, Sim]
  | definite l =>
    simp only [Length.definite?, liftRes, mapErr_ok, ok_bind, read_length hs]
    split
    · simp [Sim]
    · split
      · split
        · simp [Sim]
        · exact derBits_sim hs
      · exact Sim.bind_same fun _ _ => readAs_sim hs

/-- An object made of a header read before. -/
def BodyRel (mem : Bytes) (h : SHeader) (s : Slice) (a : Slice × SObject) (b : Bytes × BerObject) :
    Prop :=
  a.1.read mem = b.1 ∧ a.2.read mem = b.2 ∧ Tail s a.1 ∧
  ∃ (c : Slice) (x : SContent), a.2 = .mk h x ∧ c.off = s.off ∧ ContentAt h c x ∧
    match h.length with
    | .definite l => c.len = l ∧ a.1.off = s.off + l
    | .indefinite => s.off + c.len + 2 = a.1.off

theorem derUnknown_sim {mem : Bytes} {s : Slice} {h : SHeader} {n : Nat} (hs : InMemory mem s) :
    Sim (BodyRel mem h s) (sDerUnknown mem s h n) (derUnknown (s.read mem) (h.read mem) n) := by
  refine Sim.bind (getContent_sim hs) ?_
  rintro a b ⟨h1, h2, h3, h4, h5⟩
  exact ⟨h1, by simp [SObject.read, SContent.read, SAny.read, h3], h2, a.2, _, rfl, h4,
    .whole ⟨rfl, .inl rfl⟩, h5⟩

theorem derBody_sim {mem : Bytes} {D : Deps} {s : Slice} {h : SHeader} {n : Nat}
    (hs : InMemory mem s) :
    Sim (BodyRel mem h s) (sDerReadElementContentRecursive mem D s h n)
      (derReadElementContentRecursive D (s.read mem) (h.read mem) n) := by
  have hu := derUnknown_sim (h := h) (n := n) hs
  have ha : Sim (AsRel mem h.length s)
      (sDerReadElementContentAs mem D s h.tag h.length h.constructed n)
      (derReadElementContentAs D (s.read mem) h.tag h.length h.constructed n) := derReadAs_sim hs
  simp only [sDerReadElementContentRecursive, derReadElementContentRecursive]
  have hc : (h.read mem).cls = h.cls := rfl
  have htag : (h.read mem).tag = h.tag := rfl
  have hlen : (h.read mem).length = h.length := rfl
  have hcons : (h.read mem).constructed = h.constructed := rfl
  rw [hc, htag, hlen, hcons]
  by_cases hcls : h.cls ≠ .universal
  · simp only [hcls, if_true, ne_eq, not_false_eq_true]; exact hu
  · simp only [hcls, if_false]
    revert ha
    generalize sDerReadElementContentAs mem D s h.tag h.length h.constructed n = x
    generalize derReadElementContentAs D (s.read mem) h.tag h.length h.constructed n = y
    intro ha
    cases x <;> cases y <;> simp only [Sim] at ha
    · obtain ⟨g1, g2, g3, c, g4, g5, g6⟩ := ha
      exact ⟨g1, by simp [SObject.read, g2], g3, c, _, rfl, g4, g5 _, g6⟩
    · subst ha
      split <;> simp_all [Sim]
    · trivial
    · trivial

theorem placed_of_body {mem : Bytes} {s r : Slice} {h : SHeader} {a : Slice × SObject}
    {b : Bytes × BerObject} (hs : InMemory mem s) (ht : Tail s r)
    (hk : ∃ k, h.rawTag = some ⟨s.off, k⟩ ∧ 0 < k ∧ s.off + k < r.off)
    (hb : BodyRel mem h r a b) : ParseRel mem s a b := by
  obtain ⟨g1, g2, g3, c, x, g4, g5, g6, g7⟩ := hb
  obtain ⟨f1, -, f3⟩ := framed_of ht hk g3 hs g5 g7
  exact ⟨g1, g2, ht.trans g3, f1, g4 ▸ .mk f3 g6⟩

theorem parseDerRecursive_sim {mem : Bytes} {D : Deps} {n : Nat} {s : Slice}
    (hs : InMemory mem s) :
    Sim (ParseRel mem s) (sParseDerRecursive mem D n s) (parseDerRecursive D n (s.read mem)) := by
  refine Sim.bind (headerDer_sim hs) ?_
  rintro a b ⟨h1, h2, h3, h4⟩
  rw [← h1, ← h3]
  have hb := (derBody_sim (D := D) (h := a.2) (n := n) (h2.inMemory hs)).mono
    fun x y => placed_of_body hs h2 h4
  have hlen : (a.2.read mem).length = a.2.length := rfl
  rw [hlen]
  cases a.2.length with
  | definite l =>
    simp only
    split
    · simp [Sim]
    · exact hb
  | indefinite => exact hb

theorem parseDerWithTag_sim {mem : Bytes} {D : Deps} {tag : Nat} {s : Slice}
    (hs : InMemory mem s) :
    Sim (ParseRel mem s) (sParseDerWithTag mem D tag s) (parseDerWithTag D tag (s.read mem)) := by
  refine Sim.bind (headerDer_sim hs) ?_
  rintro a b ⟨h1, h2, h3, h4⟩
  rw [← h1, ← h3]
  refine Sim.bind_same fun _ _ => ?_
  refine Sim.bind (derReadAs_sim (h2.inMemory hs)) ?_
  rintro c d ⟨g1, g2, g3, e, g4, g5, g6⟩
  obtain ⟨f1, -, f3⟩ := framed_of h2 h4 g3 hs g4 g6
  exact ⟨g1, by simp [SObject.read, g2], h2.trans g3, f1, .mk f3 (g5 _)⟩

/-! ## Containers -/

section
variable {E O : Type} [ParseErr E]

theorem takeComplete_sim {mem : Bytes} {s : Slice} (hs : InMemory mem s) (n : Nat) :
    Sim (ContentsRel mem (.definite n) s) (sTakeComplete mem n s : SRes E Slice)
      (takeComplete n (s.read mem)) := by
  simp only [sTakeComplete, takeComplete, read_length hs]
  by_cases h : s.len < n
  · simp [h, Sim]
  · have h : n ≤ s.len := by omega
    simp only [Nat.not_lt.mpr h, if_false]
    exact ⟨read_second, by simp only [Tail]; omega, read_first h, rfl, rfl, rfl⟩

/-- Header and contents of a container read in both ways, and where they lie. -/
def FrameRel (mem : Bytes) (s : Slice) (a : Slice × SHeader × Slice) (b : Bytes × Header × Bytes) :
    Prop :=
  a.1.read mem = b.1 ∧ a.2.1.read mem = b.2.1 ∧ a.2.2.read mem = b.2.2 ∧ Tail s a.1 ∧
  s.off < a.1.off ∧ InMemory mem a.2.2 ∧ FramedAt ⟨s.off, a.1.off - s.off⟩ a.2.1 a.2.2

theorem frame_sim {R : Rules} {mem : Bytes} {s : Slice} (hs : InMemory mem s) :
    Sim (FrameRel mem s) (sFrame R mem s : SRes E (SHeader × Slice)) (frame R (s.read mem)) := by
  have fin : ∀ {a : Slice × SHeader} {b : Bytes × Header} {c : Slice × Slice} {d : Bytes × Bytes},
      HeaderRel mem s a b → ContentsRel mem a.2.length a.1 c d →
      FrameRel mem s (c.1, a.2, c.2) (d.1, b.2, d.2) := by
    rintro a b c d ⟨h1, h2, h3, h4⟩ ⟨g1, g2, g3, g4, g5⟩
    obtain ⟨f1, f2, f3⟩ := framed_of h2 h4 g2 hs g4 g5
    exact ⟨g1, h3, g3, h2.trans g2, f1, f2, f3⟩
  cases R with
  | ber =>
    refine Sim.bind ((headerBer_sim hs).mapErr _) ?_
    intro a b hab
    refine Sim.bind (P := ContentsRel mem a.2.length a.1) ?_ fun c d hcd => fin hab hcd
    obtain ⟨h1, h2, h3, -⟩ := hab
    have hlen : b.2.length = a.2.length := by rw [← h3]; rfl
    rw [hlen, ← h1]
    cases hl : a.2.length with
    | definite len => exact takeComplete_sim (h2.inMemory hs) len
    | indefinite =>
      rw [← h3]
      have := (getContent_sim (depth := maxRecursion) (h := a.2) (h2.inMemory hs)).mapErr
        (NomErr.map (ParseErr.ofBer (E := E)))
      rw [hl] at this
      exact this
  | der =>
    refine Sim.bind ((headerDer_sim hs).mapErr _) ?_
    intro a b hab
    refine Sim.bind (P := ContentsRel mem a.2.length a.1) ?_ fun c d hcd => fin hab hcd
    obtain ⟨h1, h2, h3, -⟩ := hab
    have hlen : b.2.length = a.2.length := by rw [← h3]; rfl
    rw [hlen, ← h1]
    cases hl : a.2.length with
    | definite len => exact takeComplete_sim (h2.inMemory hs) len
    | indefinite => simp [Sim]

end

end Verif.Lemmas
