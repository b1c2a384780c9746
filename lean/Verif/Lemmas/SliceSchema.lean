import Verif.Lemmas.Slice
import Verif.SliceSchema
import Verif.SpecPlaceSchema
/-!
# Composed parsers on slices do what they do on lists of octets
-/
namespace Verif.Lemmas
open Outcome Spec
set_option linter.unusedSectionVars false

section
variable {E α β : Type} [ParseErr E]

/-- The two parsers end in the same way on every slice; what they read is related to the values. -/
def Both (mem : Bytes) (P : Slice → α → β → Prop) (p : Slice → SRes E α) (q : Bytes → IRes E β) : Prop :=
  ∀ s, InMemory mem s →
    Sim (fun a b => a.1.read mem = b.1 ∧ Tail s a.1 ∧ P ⟨s.off, a.1.off - s.off⟩ a.2 b.2) (p s) (q (s.read mem))

/-- The values of a repetition lie one after the other. -/
inductive Chain (P : Slice → α → β → Prop) : Slice → List α → List β → Prop
  | nil {off : Nat} : Chain P ⟨off, 0⟩ [] []
  | cons {off n m : Nat} {a : α} {b : β} {l : List α} {l' : List β} :
    0 < n → P ⟨off, n⟩ a b → Chain P ⟨off + n, m⟩ l l' → Chain P ⟨off, n + m⟩ (a :: l) (b :: l')

variable {mem : Bytes} {P : Slice → α → β → Prop} {p : Slice → SRes E α} {q : Bytes → IRes E β}

theorem cut_both (h : Both mem P p q) : Both mem P (sCut p) (cut q) := by
  intro s hs
  have h := h s hs
  simp only [sCut, cut]
  generalize p s = x at h
  generalize q (s.read mem) = y at h
  cases x <;> cases y <;> simp only [Sim] at h
  · exact h
  · subst h; split <;> simp_all [Sim]
  · trivial
  · trivial

theorem complete_both (h : Both mem P p q) : Both mem P (sComplete mem p) (complete q) := by
  intro s hs
  have h := h s hs
  simp only [sComplete, complete]
  generalize p s = x at h
  generalize q (s.read mem) = y at h
  cases x <;> cases y <;> simp only [Sim] at h
  · exact h
  · subst h; split <;> simp_all [Sim]
  · trivial
  · trivial

theorem chain_cons {s r : Slice} {k : Nat} {a : α} {b : β} {l : List α} {l' : List β} (hr : Tail s r)
    (hne : r.len ≠ s.len) (ha : P ⟨s.off, r.off - s.off⟩ a b) (hk : r.off ≤ k)
    (hl : Chain P ⟨r.off, k - r.off⟩ l l') : Chain P ⟨s.off, k - s.off⟩ (a :: l) (b :: l') := by
  simp only [Tail] at hr
  have e : k - s.off = (r.off - s.off) + (k - r.off) := by omega
  rw [e]
  refine .cons (by omega) ha ?_
  rwa [show s.off + (r.off - s.off) = r.off by omega]

theorem many0_both (h : Both mem P p q) : ∀ fuel, Both mem (Chain P) (sMany0 mem p fuel) (many0 q fuel)
  | 0, _, _ => by simp [sMany0, many0, Sim]
  | fuel + 1, s, hs => by
    have ih := many0_both h fuel
    have h := h s hs
    simp only [sMany0, many0]
    generalize p s = x at h
    generalize q (s.read mem) = y at h
    cases x <;> cases y <;> simp only [Sim] at h
    · obtain ⟨h1, h2, h3⟩ := h
      simp only [← h1, read_length hs, read_length (h2.inMemory hs)]
      split
      · simp [Sim]
      · rename_i hne
        refine Sim.bind (ih _ (h2.inMemory hs)) ?_
        rintro c d ⟨g1, g2, g3⟩
        exact ⟨g1, h2.trans g2, chain_cons h2 hne h3 g2.1 g3⟩
    · subst h
      rename_i e
      cases e with
      | error e =>
        refine ⟨rfl, Tail.refl s, ?_⟩
        simp only [Nat.sub_self]; exact .nil
      | incomplete n => rfl
      | failure e => rfl
    · trivial
    · trivial

theorem allConsuming_both (h : Both mem P p q) :
    ∀ s, InMemory mem s → Sim (fun a b => P s a.2 b.2) (sAllConsuming mem p s) (allConsuming q (s.read mem)) := by
  intro s hs
  refine Sim.bind (h s hs) ?_
  rintro ⟨r, a⟩ ⟨r', b⟩ ⟨h1, h2, h3⟩
  have hl := read_length (h2.inMemory hs)
  simp only at h1 hl
  subst h1
  simp only
  cases hr : r.read mem with
  | nil =>
    rw [hr] at hl
    simp only [List.length_nil] at hl
    simp only [← hl, if_true]
    simp only [Tail] at h2
    have e : r.off - s.off = s.len := by omega
    have h3 : P ⟨s.off, r.off - s.off⟩ a b := h3
    rw [e] at h3
    exact h3
  | cons x l =>
    rw [hr] at hl
    simp only [List.length_cons] at hl
    have : r.len ≠ 0 := by omega
    simp only [this, if_false]
    simp [Sim]

/-- A closure called with contents and header. -/
def Inside (mem : Bytes) (Q : SHeader → Slice → α → β → Prop) (f : Slice → SHeader → SRes E α)
    (g : Bytes → Header → IRes E β) : Prop :=
  ∀ c h, InMemory mem c → Sim (fun a b => Q h c a.2 b.2) (f c h) (g (c.read mem) (h.read mem))

theorem container_both {R : Rules} {Q : SHeader → Slice → α → β → Prop} {f : Slice → SHeader → SRes E α}
    {g : Bytes → Header → IRes E β} (h : Inside mem Q f g) :
    Both mem (fun e a b => ∃ h c, FramedAt e h c ∧ InMemory mem c ∧ Q h c a b) (sContainer R mem f)
      (container R g) := by
  intro s hs
  refine Sim.bind (frame_sim hs) ?_
  rintro ⟨r, hd, c⟩ ⟨r', hd', c'⟩ ⟨h1, h2, h3, h4, h5, h6, h7⟩
  simp only at h1 h2 h3
  subst h2 h3
  refine Sim.bind (h c hd h6) ?_
  rintro a b hab
  exact ⟨h1, h4, hd, c, h7, h6, hab⟩

theorem liftResE_tag {h : SHeader} {tag : Nat} {u : Unit}
    (hu : (liftResE ((h.read mem).assertTag tag) : Outcome (NomErr E) Unit) = .ok u) : h.tag = tag := by
  have e : (h.read mem).tag = h.tag := rfl
  simp only [liftResE, Header.assertTag, e] at hu
  split at hu
  · assumption
  · simp at hu

theorem defined_both {R : Rules} {tag : Nat} {Q : SHeader → Slice → α → β → Prop}
    {f : Slice → SHeader → SRes E α} {g : Bytes → Header → IRes E β} (h : Inside mem Q f g) :
    Both mem (fun e a b => ∃ h c, FramedAt e h c ∧ InMemory mem c ∧ h.tag = tag ∧ Q h c a b)
      (sDefinedG R tag mem f) (definedG R tag g) :=
  container_both (Q := fun h c a b => h.tag = tag ∧ Q h c a b) fun c hd hc => by
    refine Sim.bind_same fun u hu => ?_
    exact (h c hd hc).mono fun a b hab => ⟨liftResE_tag hu, hab⟩

theorem explicit_both {R : Rules} {tag : Nat} {Q : SHeader → Slice → α → β → Prop}
    {f : Slice → SHeader → SRes E α} {g : Bytes → Header → IRes E β} (h : Inside mem Q f g) :
    Both mem
      (fun e a b => ∃ h c, FramedAt e h c ∧ InMemory mem c ∧ h.cls ≠ .universal ∧ h.tag = tag ∧ Q h c a b)
      (sTaggedExplicitG R tag mem f) (taggedExplicitG R tag g) :=
  container_both (Q := fun h c a b => h.cls ≠ .universal ∧ h.tag = tag ∧ Q h c a b) fun c hd hc => by
    have e : (hd.read mem).cls = hd.cls := rfl
    simp only [e]
    split
    · simp [Sim]
    · rename_i hcls
      refine Sim.bind_same fun u hu => Sim.bind_same fun _ _ => ?_
      exact (h c hd hc).mono fun a b hab => ⟨hcls, liftResE_tag hu, hab⟩

theorem implicit_both {R : Rules} {tag : Nat} {Q : SHeader → Slice → α → β → Prop}
    {f : Slice → SHeader → Nat → SRes E α} {g : Bytes → Header → Nat → IRes E β}
    (h : Inside mem Q (fun c h => f c h maxRecursion) fun c h => g c h maxRecursion) :
    Both mem (fun e a b => ∃ h c, FramedAt e h c ∧ InMemory mem c ∧ h.tag = tag ∧ Q h c a b)
      (sTaggedImplicitG R tag mem f) (taggedImplicitG R tag g) :=
  container_both (Q := fun h c a b => h.tag = tag ∧ Q h c a b) fun c hd hc => by
    refine Sim.bind_same fun u hu => ?_
    exact (h c hd hc).mono fun a b hab => ⟨liftResE_tag hu, hab⟩

theorem ofV_both {R : Rules} {tag : Nat} (h : Both mem P p q) :
    Both mem (fun e l l' => ∃ h c, FramedAt e h c ∧ InMemory mem c ∧ h.tag = tag ∧ Chain P c l l')
      (sOfV R tag mem p) (ofV R tag q) :=
  defined_both (Q := fun _ c l l' => Chain P c l l') fun c _ hc => by
    have hl := read_length hc
    simp only [ofSubparser, hl]
    exact allConsuming_both (many0_both (complete_both (cut_both h)) (c.len + 1)) c hc

end

theorem Sim.mono_ok {ε α β : Type} {P Q : α → β → Prop} {x : Outcome ε α} {y : Outcome ε β}
    (h : Sim P x y) (hPQ : ∀ a b, x = .ok a → P a b → Q a b) : Sim Q x y := by
  cases x <;> cases y <;> simp_all [Sim]

theorem typed_tag {mem : Bytes} {D : Deps} {R : Rules} {tag : Nat} {s : Slice} {a : Slice × SObject}
    (h : sParseTyped mem D R tag s = .ok a) : a.2.header.tag = tag := by
  have key : ∀ {h : SHeader} {u : Unit}, (liftRes ((h.read mem).assertTag tag) = .ok u) → h.tag = tag := by
    intro h u hu
    have e : (h.read mem).tag = h.tag := rfl
    simp only [liftRes, Header.assertTag, e] at hu
    split at hu
    · assumption
    · simp at hu
  cases R <;>
  · obtain ⟨r, -, h⟩ := bind_eq_ok.mp h
    obtain ⟨u, hu, h⟩ := bind_eq_ok.mp h
    obtain ⟨t, -, h⟩ := bind_eq_ok.mp h
    simp only [Outcome.ok.injEq] at h
    subst h
    exact key hu

/-- The object read out, and where it lies. -/
def ObjAt (mem : Bytes) (x : Schema) (e : Slice) (o : SObject) (o' : BerObject) : Prop :=
  o.read mem = o' ∧ SchemaAt x e o

theorem of_parseRel {mem : Bytes} {s : Slice} {a : Slice × SObject} {b : Bytes × BerObject}
    (h : ParseRel mem s a b) : a.1.read mem = b.1 ∧ Tail s a.1 ∧ a.2.read mem = b.2 ∧
      Placed ⟨s.off, a.1.off - s.off⟩ a.2 := ⟨h.1, h.2.2.1, h.2.1, h.2.2.2.2⟩

/-- The two functions for one type. -/
def bytesTyped (D : Deps) (R : Rules) (tag : Nat) : Bytes → IRes BerError BerObject :=
  match R with
  | .ber => parseBerWithTag D tag
  | .der => parseDerWithTag D tag

theorem typed_both {mem : Bytes} {D : Deps} {R : Rules} {tag : Nat} :
    Both mem (fun e o o' => o.read mem = o' ∧ Placed e o ∧ o.header.tag = tag) (sParseTyped mem D R tag)
      (bytesTyped D R tag) := by
  intro s hs
  have h : Sim (ParseRel mem s) (sParseTyped mem D R tag s)
      (bytesTyped D R tag (s.read mem)) := by
    cases R
    · exact parseBerWithTag_sim hs
    · exact parseDerWithTag_sim hs
  refine h.mono_ok fun a b ha hab => ?_
  obtain ⟨h1, h2, h3, h4⟩ := of_parseRel hab
  exact ⟨h1, h2, h3, h4, typed_tag ha⟩

theorem alt_both {mem : Bytes} {D : Deps} {R : Rules} : ∀ (tags : List Nat) (tag : Nat),
    Both mem (fun e o o' => o.read mem = o' ∧ Placed e o ∧ o.header.tag ∈ tag :: tags)
      (sAlt (sParseTyped mem D R) tag tags)
      (alt (bytesTyped D R) tag tags)
  | [], tag, s, hs => by
    have h := typed_both (D := D) (R := R) (tag := tag) s hs
    simp only [sAlt, alt]
    exact h.mono fun a b h => ⟨h.1, h.2.1, h.2.2.1, h.2.2.2.1, by simp [h.2.2.2.2]⟩
  | t :: ts, tag, s, hs => by
    have h := typed_both (D := D) (R := R) (tag := tag) s hs
    have ih := alt_both (D := D) (R := R) ts t s hs
    simp only [sAlt, alt]
    generalize sParseTyped mem D R tag s = x at h
    generalize bytesTyped D R tag (s.read mem) = y at h
    cases x <;> cases y <;> simp only [Sim] at h
    · exact ⟨h.1, h.2.1, h.2.2.1, h.2.2.2.1, by simp [h.2.2.2.2]⟩
    · subst h
      rename_i e
      cases e with
      | error e =>
        exact ih.mono fun a b h => ⟨h.1, h.2.1, h.2.2.1, h.2.2.2.1, List.mem_cons_of_mem _ h.2.2.2.2⟩
      | incomplete n => rfl
      | failure e => rfl
    · trivial
    · trivial

theorem optional_both {mem : Bytes} {P : Slice → SObject → BerObject → Prop}
    {p : Slice → SRes BerError SObject} {q : Bytes → IRes BerError BerObject} (h : Both mem P p q) :
    Both mem (fun e o o' => (∃ x x', P e x x' ∧ o = .mk x.header (.optionalSome x) ∧
        o' = .mk x'.header (.optionalSome x')) ∨ e.len = 0 ∧ o = .absent ∧ o' = .fromObj .optionalNone)
      (sParseOptional p) (parseOptional q) := by
  intro s hs
  have h := h s hs
  simp only [sParseOptional, parseOptional]
  generalize p s = x at h
  generalize q (s.read mem) = y at h
  cases x <;> cases y <;> simp only [Sim] at h
  · exact ⟨h.1, h.2.1, .inl ⟨_, _, h.2.2, rfl, rfl⟩⟩
  · exact ⟨rfl, Tail.refl s, .inr ⟨Nat.sub_self _, rfl, rfl⟩⟩
  · trivial
  · trivial

theorem chain_items {mem : Bytes} {x : Schema} {c : Slice} {l : List SObject} {l' : List BerObject}
    (h : Chain (ObjAt mem x) c l l') : SObject.readAll mem l = l' ∧ ItemsAt x c l := by
  induction h with
  | nil => exact ⟨by simp [SObject.readAll], .nil⟩
  | cons hn ha _ ih => exact ⟨by simp [SObject.readAll, ih.1, ha.1], .cons hn ha.2 ih.2⟩

theorem read_header {mem : Bytes} (o : SObject) : (o.read mem).header = o.header.read mem := by
  cases o; simp [SObject.read, SObject.header, BerObject.header]

theorem map_both {E α β α' β' : Type} {mem : Bytes} {P : Slice → α → β → Prop} {Q : Slice → α' → β' → Prop}
    {p : Slice → SRes E α} {q : Bytes → IRes E β} {f : α → α'} {g : β → β'} (h : Both mem P p q)
    (hf : ∀ e a b, P e a b → Q e (f a) (g b)) :
    Both mem Q (fun s => p s >>? fun r => .ok (r.1, f r.2)) (mapRes g q) := by
  intro s hs
  exact Sim.bind (h s hs) fun a b hab => ⟨hab.1, hab.2.1, hf _ _ _ hab.2.2⟩

/-- A closure that reads from the start of the contents. -/
theorem inside_prefix {E α β : Type} [ParseErr E] {mem : Bytes} {P : Slice → α → β → Prop}
    {p : Slice → SRes E α} {q : Bytes → IRes E β} (h : Both mem P p q) :
    Inside mem (fun _ c a b => ∃ n, n ≤ c.len ∧ P ⟨c.off, n⟩ a b) (fun c _ => p c) fun c _ => q c := by
  intro c hd hc
  refine (h c hc).mono fun a b hab => ⟨_, ?_, hab.2.2⟩
  have := hab.2.1
  simp only [Tail] at this; omega

theorem explicit_inside {mem : Bytes} {x : Schema} {p : Slice → SRes BerError SObject}
    {q : Bytes → IRes BerError BerObject} (h : Both mem (ObjAt mem x) p q) (t : SHeader → Nat)
    (t' : Header → Nat) (ht : ∀ h, t' (h.read mem) = t h) :
    Inside mem (fun h c o o' => ∃ y n, n ≤ c.len ∧ SchemaAt x ⟨c.off, n⟩ y ∧
        o = .mk h (.tagged h.cls (t h) y) ∧ o.read mem = o')
      (fun c h => p c >>? fun r => .ok (r.1, SObject.mk h (.tagged h.cls (t h) r.2)))
      (fun c h => q c >>? fun r => .ok (r.1, BerObject.mk h (.tagged h.cls (t' h) r.2))) := by
  intro c hd hc
  refine Sim.bind (h c hc) fun a b hab => ?_
  obtain ⟨-, h2, h3, h4⟩ := hab
  refine ⟨a.2, _, ?_, h4, rfl, ?_⟩
  · simp only [Tail] at h2; omega
  · simp [SObject.read, SContent.read, h3, ← ht, SHeader.read]

theorem content_inside {mem : Bytes} {D : Deps} {R : Rules} {type : Nat} :
    Inside mem (fun h c o o' => ∃ y n, n ≤ c.len ∧ (match h.length with
          | .definite l => n = l
          | .indefinite => n + 2 ≤ c.len) ∧ ContentAt h ⟨c.off, n⟩ y ∧ o = .mk h y ∧ o.read mem = o')
      (fun c h => sParseContent mem D R type c h maxRecursion >>? fun r => .ok (r.1, SObject.mk h r.2))
      (fun c h => (match R with | .ber => parseBerContent D type | .der => parseDerContent D type) c h maxRecursion
        >>? fun r => .ok (r.1, BerObject.mk h r.2)) := by
  intro c hd hc
  refine Sim.bind (P := AsRel mem hd.length c) ?_ ?_
  · cases R
    · exact readAs_sim hc
    · exact derReadAs_sim hc
  · rintro ⟨r, y⟩ b ⟨-, h2, h3, d, h4, h5, h6⟩
    have hn : d.len ≤ c.len := by
      simp only [Tail] at h3
      cases hl : hd.length <;> simp only [hl] at h6 <;> omega
    refine ⟨y, d.len, hn, ?_, ?_, rfl, by simp only at h2; simp [SObject.read, h2]⟩
    · simp only [Tail] at h3
      cases hl : hd.length <;> simp only [hl] at h6 ⊢ <;> omega
    · rw [← h4]; exact h5 _

theorem read_fromSeq {mem : Bytes} (l : List SObject) :
    (SObject.fromSeq l).read mem = .fromSeq (SObject.readAll mem l) := by
  simp [SObject.fromSeq, SObject.read, SContent.read, BerObject.fromSeq, BerObject.fromObj, Content.tag,
    SHeader.read, SHeader.new, Header.new]

theorem read_fromSet {mem : Bytes} (l : List SObject) :
    (SObject.fromSet l).read mem = .fromSet (SObject.readAll mem l) := by
  simp [SObject.fromSet, SObject.read, SContent.read, BerObject.fromSet, BerObject.fromObj, Content.tag,
    SHeader.read, SHeader.new, Header.new]

theorem read_absent {mem : Bytes} : SObject.absent.read mem = .fromObj .optionalNone := by
  simp [SObject.absent, SObject.read, SContent.read, BerObject.fromObj, Content.tag,
    SHeader.read, SHeader.new, Header.new, Tag.sequence, Tag.set]

mutual
theorem schema_both {mem : Bytes} {D : Deps} {R : Rules} : ∀ x : Schema,
    Both mem (ObjAt mem x) (x.runAt mem D R) (x.run D R)
  | .any => fun s hs => by
    have h : Sim (ParseRel mem s) ((Schema.any).runAt mem D R s) ((Schema.any).run D R (s.read mem)) := by
      cases R <;> simp only [Schema.runAt, Schema.run]
      · exact parseBerRecursive_sim hs
      · exact parseDerRecursive_sim hs
    refine h.mono fun a b hab => ?_
    obtain ⟨h1, h2, h3, h4⟩ := of_parseRel hab
    exact ⟨h1, h2, h3, .any h4⟩
  | .typed tag => fun s hs => by
    have h := typed_both (D := D) (R := R) (tag := tag) s hs
    have e : (Schema.typed tag).run D R = (bytesTyped D R tag) := by
      cases R <;> simp only [Schema.run] <;> rfl
    rw [e]
    simp only [Schema.runAt]
    refine h.mono fun a b hab => ?_
    obtain ⟨h1, h2, h3, h4, h5⟩ := hab
    obtain ⟨r, hd, y⟩ := a
    exact ⟨h1, h2, h3, .typed h4 h5⟩
  | .choice tag tags => fun s hs => by
    have h := alt_both (D := D) (R := R) tags tag s hs
    have e : (Schema.choice tag tags).run D R = alt (bytesTyped D R) tag tags := by
      cases R <;> simp only [Schema.run] <;> rfl
    rw [e]
    simp only [Schema.runAt]
    refine h.mono fun a b hab => ?_
    obtain ⟨h1, h2, h3, h4, h5⟩ := hab
    obtain ⟨r, hd, y⟩ := a
    exact ⟨h1, h2, h3, .choice h4 h5⟩
  | .sequenceOf x => fun s hs => by
    have h := map_both (Q := ObjAt mem (.sequenceOf x)) (f := SObject.fromSeq) (g := BerObject.fromSeq)
      (ofV_both (R := R) (tag := Tag.sequence) (schema_both (mem := mem) (D := D) (R := R) x)) (by
        rintro e l l' ⟨h, c, h1, -, h2, h3⟩
        obtain ⟨h4, h5⟩ := chain_items h3
        exact ⟨by rw [read_fromSeq, h4], .sequenceOf h1 h2 h5 rfl⟩)
    simp only [Schema.runAt, Schema.run]
    exact h s hs
  | .setOf x => fun s hs => by
    have h := map_both (Q := ObjAt mem (.setOf x)) (f := SObject.fromSet) (g := BerObject.fromSet)
      (ofV_both (R := R) (tag := Tag.set) (schema_both (mem := mem) (D := D) (R := R) x)) (by
        rintro e l l' ⟨h, c, h1, -, h2, h3⟩
        obtain ⟨h4, h5⟩ := chain_items h3
        exact ⟨by rw [read_fromSet, h4], .setOf h1 h2 h5 rfl⟩)
    simp only [Schema.runAt, Schema.run]
    exact h s hs
  | .sequence xs => fun s hs => by
    have h := map_both (Q := ObjAt mem (.sequence xs)) (f := SObject.fromSeq) (g := BerObject.fromSeq)
      (defined_both (R := R) (tag := Tag.sequence)
        (inside_prefix (schemas_both (mem := mem) (D := D) (R := R) xs))) (by
        rintro e l l' ⟨h, c, h1, -, h2, n, h3, h4, h5⟩
        exact ⟨by rw [read_fromSeq, h4], .sequence h1 h2 h3 h5 rfl⟩)
    simp only [Schema.runAt, Schema.run]
    exact h s hs
  | .set xs => fun s hs => by
    have h := map_both (Q := ObjAt mem (.set xs)) (f := SObject.fromSet) (g := BerObject.fromSet)
      (defined_both (R := R) (tag := Tag.set)
        (inside_prefix (schemas_both (mem := mem) (D := D) (R := R) xs))) (by
        rintro e l l' ⟨h, c, h1, -, h2, n, h3, h4, h5⟩
        exact ⟨by rw [read_fromSet, h4], .set h1 h2 h3 h5 rfl⟩)
    simp only [Schema.runAt, Schema.run]
    exact h s hs
  | .explicit tag x => fun s hs => by
    have h := explicit_both (R := R) (tag := tag) (explicit_inside
      (schema_both (mem := mem) (D := D) (R := R) x) (fun _ => tag) (fun _ => tag) fun _ => rfl) s hs
    simp only [Schema.runAt, Schema.run, taggedExplicit]
    refine h.mono fun a b hab => ?_
    obtain ⟨h1, h2, hd, c, h3, -, h4, h5, y, n, h6, h7, h8, h9⟩ := hab
    exact ⟨h1, h2, h9, h8 ▸ .explicit h3 h4 h5 h6 h7⟩
  | .implicit tag type => fun s hs => by
    have h := implicit_both (R := R) (tag := tag)
      (f := fun c h d => sParseContent mem D R type c h d >>? fun r => .ok (r.1, SObject.mk h r.2))
      (g := fun c h d => (match R with | .ber => parseBerContent D type | .der => parseDerContent D type) c h d
        >>? fun r => .ok (r.1, BerObject.mk h r.2)) (content_inside (mem := mem) (D := D) (R := R) (type := type)) s hs
    have e : (Schema.implicit tag type).run D R = taggedImplicitG R tag
        (fun c h d => (match R with | .ber => parseBerContent D type | .der => parseDerContent D type) c h d
          >>? fun r => .ok (r.1, BerObject.mk h r.2)) := by
      cases R <;> simp only [Schema.run, taggedImplicit]
    rw [e]
    simp only [Schema.runAt]
    refine h.mono fun a b hab => ?_
    obtain ⟨h1, h2, hd, c, h3, -, h4, y, n, h5, h6, h7, h8, h9⟩ := hab
    refine ⟨h1, h2, h9, h8 ▸ .implicit h3 h4 (n := n) ?_ h7⟩
    have := h3.last
    cases hl : hd.length <;> simp only [hl] at h6 this ⊢ <;> omega
  | .optional x => fun s hs => by
    have h := optional_both (schema_both (mem := mem) (D := D) (R := R) x) s hs
    simp only [Schema.runAt, Schema.run]
    refine h.mono fun a b hab => ⟨hab.1, hab.2.1, ?_⟩
    obtain ⟨-, -, ⟨y, y', ⟨h1, h2⟩, h3, h4⟩ | ⟨h1, h2, h3⟩⟩ := hab
    · refine ⟨?_, h3 ▸ .present h2⟩
      rw [h3, h4, ← h1, read_header]
      simp [SObject.read, SContent.read]
    · refine ⟨by rw [h2, h3, read_absent], ?_⟩
      simp only at h1
      rw [h1, h2]; exact .absent rfl
  | .explicitOptional tag x => fun s hs => by
    have h := optional_both (explicit_both (R := .ber) (tag := tag) (explicit_inside
      (schema_both (mem := mem) (D := D) (R := R) x) (fun h => h.tag) (fun h => h.tag) fun _ => rfl)) s hs
    simp only [Schema.runAt, Schema.run, parseExplicitOptional]
    refine h.mono fun a b hab => ⟨hab.1, hab.2.1, ?_⟩
    obtain ⟨-, -, ⟨y, y', ⟨hd, c, h3, -, h4, h5, z, n, h6, h7, h8, h9⟩, h1, h2⟩ | ⟨h1, h2, h3⟩⟩ := hab
    · refine ⟨?_, ?_⟩
      · rw [h1, h2, ← h9, read_header]
        simp [SObject.read, SContent.read]
      · rw [h1]
        refine .explicitPresent ?_
        rw [h8, h5]
        exact .explicit h3 h4 h5 h6 h7
    · refine ⟨by rw [h2, h3, read_absent], ?_⟩
      simp only at h1
      rw [h1, h2]; exact .explicitAbsent rfl
theorem schemas_both {mem : Bytes} {D : Deps} {R : Rules} : ∀ xs : List Schema,
    Both mem (fun e l l' => SObject.readAll mem l = l' ∧ ComponentsAt xs e l) (Schema.runAllAt mem D R xs)
      (Schema.runAll D R xs)
  | [] => fun s hs => by
    simp only [Schema.runAllAt, Schema.runAll]
    refine ⟨rfl, Tail.refl s, by simp [SObject.readAll], ?_⟩
    simp only [Nat.sub_self]; exact .nil
  | x :: xs => fun s hs => by
    simp only [Schema.runAllAt, Schema.runAll]
    refine Sim.bind (schema_both (mem := mem) (D := D) (R := R) x s hs) ?_
    rintro a b ⟨h1, h2, h3, h4⟩
    rw [← h1]
    refine Sim.bind (schemas_both (mem := mem) (D := D) (R := R) xs a.1 (h2.inMemory hs)) ?_
    rintro c d ⟨g1, g2, g3, g4⟩
    refine ⟨g1, h2.trans g2, by simp [SObject.readAll, h3, g3], ?_⟩
    simp only [Tail] at h2 g2
    have e : c.1.off - s.off = (a.1.off - s.off) + (c.1.off - a.1.off) := by omega
    simp only [e]
    refine .cons h4 ?_
    rwa [show s.off + (a.1.off - s.off) = a.1.off by omega]
end

end Verif.Lemmas
