import Verif.Lemmas.SliceMove
import Verif.Lemmas.SliceSchema
/-!
# Composed parsers on slices do the same at every address
-/
namespace Verif.Lemmas
open Outcome Spec
set_option linter.unusedSectionVars false

section
variable {E α β : Type} [ParseErr E]

/-- The second parser, `d` octets further on, ends in the same way with the value moved by `g`. -/
def Shift (mem mem' : Bytes) (d : Nat) (g : α → β) (p : Slice → SRes E α) (p' : Slice → SRes E β) : Prop :=
  ∀ s, InMemory mem s → Same mem mem' d s →
    Sim (fun a b => b = (moveSlice d a.1, g a.2) ∧ Tail s a.1) (p s) (p' (moveSlice d s))

variable {mem mem' : Bytes} {d : Nat} {g : α → β} {p : Slice → SRes E α} {p' : Slice → SRes E β}

theorem cut_shift (h : Shift mem mem' d g p p') : Shift mem mem' d g (sCut p) (sCut p') := by
  intro s hm hs
  have h := h s hm hs
  simp only [sCut]
  generalize p s = x at h
  generalize p' (moveSlice d s) = y at h
  cases x <;> cases y <;> simp only [Sim] at h
  · exact h
  · subst h; split <;> simp_all [Sim]
  · trivial
  · trivial

theorem complete_shift (h : Shift mem mem' d g p p') :
    Shift mem mem' d g (sComplete mem p) (sComplete mem' p') := by
  intro s hm hs
  have h := h s hm hs
  simp only [sComplete, hs.self]
  generalize p s = x at h
  generalize p' (moveSlice d s) = y at h
  cases x <;> cases y <;> simp only [Sim] at h
  · exact h
  · subst h; split <;> simp_all [Sim]
  · trivial
  · trivial

theorem many0_shift (h : Shift mem mem' d g p p') : ∀ fuel,
    Shift mem mem' d (List.map g) (sMany0 mem p fuel) (sMany0 mem' p' fuel)
  | 0, _, _, _ => by simp [sMany0, Sim]
  | fuel + 1, s, hm, hs => by
    have ih := many0_shift h fuel
    have h := h s hm hs
    have hl : (moveSlice d s).len = s.len := rfl
    simp only [sMany0, hs.self]
    generalize p s = x at h
    generalize p' (moveSlice d s) = y at h
    cases x <;> cases y <;> simp only [Sim] at h
    · rename_i a b
      obtain ⟨rfl, h2⟩ := h
      have hl' : (moveSlice d a.1).len = a.1.len := rfl
      simp only [hl, hl']
      split
      · simp [Sim]
      · refine Sim.bind (ih _ (h2.inMemory hm) (hs.sub h2.within)) ?_
        rintro c _ ⟨rfl, g2⟩
        exact ⟨rfl, h2.trans g2⟩
    · subst h
      rename_i e
      cases e with
      | error e => exact ⟨rfl, Tail.refl s⟩
      | incomplete n => rfl
      | failure e => rfl
    · trivial
    · trivial

theorem allConsuming_shift (h : Shift mem mem' d g p p') :
    Shift mem mem' d g (sAllConsuming mem p) (sAllConsuming mem' p') := by
  intro s hm hs
  refine Sim.bind (h s hm hs) ?_
  rintro a _ ⟨rfl, h2⟩
  have hl' : (moveSlice d a.1).len = a.1.len := rfl
  simp only [hl', (hs.sub h2.within).self]
  split
  · exact ⟨rfl, h2⟩
  · simp [Sim]

theorem takeComplete_shift {n : Nat} {s : Slice} (hs : Same mem mem' d s) :
    Sim (fun a b => b = (moveSlice d a.1, moveSlice d a.2) ∧ Tail s a.1 ∧ PartOf a.2 s)
      (sTakeComplete mem n s : SRes E Slice) (sTakeComplete mem' n (moveSlice d s)) := by
  have hl : (moveSlice d s).len = s.len := rfl
  simp only [sTakeComplete, hl, hs.self]
  split
  · simp [Sim]
  · simp only [Sim, moveSlice, PartOf, Tail, Prod.mk.injEq, Slice.mk.injEq, and_true]
    omega

theorem frame_move {R : Rules} {s : Slice} (hs : Same mem mem' d s) :
    Sim (fun a b => b = (moveSlice d a.1, moveHeader d a.2.1, moveSlice d a.2.2) ∧ PartOf a.2.2 s)
      (sFrame R mem s : SRes E (SHeader × Slice)) (sFrame R mem' (moveSlice d s)) := by
  cases R with
  | ber =>
    refine Sim.bind ((headerBer_move hs).mapErr _) ?_
    rintro a _ ⟨rfl, h2⟩
    refine Sim.bind (P := fun x y => y = (moveSlice d x.1, moveSlice d x.2) ∧ Tail a.1 x.1 ∧ PartOf x.2 a.1) ?_ ?_
    · have hl : (moveHeader d a.2).length = a.2.length := rfl
      simp only [hl]
      cases a.2.length with
      | definite n => exact takeComplete_shift (hs.sub h2.within)
      | indefinite => exact (getContent_move (hs.sub h2.within)).mapErr _
    · rintro c _ ⟨rfl, -, h4⟩
      exact ⟨rfl, within_trans h4 h2.within⟩
  | der =>
    refine Sim.bind ((headerDer_move hs).mapErr _) ?_
    rintro a _ ⟨rfl, h2⟩
    refine Sim.bind (P := fun x y => y = (moveSlice d x.1, moveSlice d x.2) ∧ Tail a.1 x.1 ∧ PartOf x.2 a.1) ?_ ?_
    · have hl : (moveHeader d a.2).length = a.2.length := rfl
      simp only [hl]
      cases a.2.length with
      | definite n => exact takeComplete_shift (hs.sub h2.within)
      | indefinite => simp [Sim]
    · rintro c _ ⟨rfl, -, h4⟩
      exact ⟨rfl, within_trans h4 h2.within⟩

theorem container_shift {R : Rules} {f : Slice → SHeader → SRes E α} {f' : Slice → SHeader → SRes E β}
    (h : ∀ hd c, InMemory mem c → Same mem mem' d c →
      Sim (fun a b => b.2 = g a.2) (f c hd) (f' (moveSlice d c) (moveHeader d hd))) :
    Shift mem mem' d g (sContainer R mem f) (sContainer R mem' f') := by
  intro s hm hs
  refine Sim.bind (P := fun a b => (b = (moveSlice d a.1, moveHeader d a.2.1, moveSlice d a.2.2) ∧
    PartOf a.2.2 s) ∧ Tail s a.1) ?_ ?_
  · refine (frame_move hs).mono_ok fun a b ha hab => ⟨hab, ?_⟩
    obtain ⟨_, -, hb⟩ := (frame_sim (E := E) hm).ok ha
    exact hb.2.2.2.1
  · rintro a _ ⟨⟨rfl, h2⟩, h3⟩
    refine Sim.bind (h a.2.1 a.2.2 ?_ (hs.sub h2)) ?_
    · simp only [InMemory, PartOf] at *; omega
    · rintro x y hxy
      exact ⟨by simp only [hxy], h3⟩

theorem moved_tag {h : SHeader} : ((moveHeader d h).read mem').assertTag = (h.read mem).assertTag := rfl

theorem moved_constructed {h : SHeader} :
    ((moveHeader d h).read mem').assertConstructed = (h.read mem).assertConstructed := rfl

theorem defined_shift {R : Rules} {tag : Nat} {f : Slice → SHeader → SRes E α} {f' : Slice → SHeader → SRes E β}
    (h : ∀ hd c, InMemory mem c → Same mem mem' d c →
      Sim (fun a b => b.2 = g a.2) (f c hd) (f' (moveSlice d c) (moveHeader d hd))) :
    Shift mem mem' d g (sDefinedG R tag mem f) (sDefinedG R tag mem' f') :=
  container_shift fun hd c hm hs => by
    simp only [moved_tag (mem := mem)]
    exact Sim.bind_same fun _ _ => h hd c hm hs

theorem explicit_shift {R : Rules} {tag : Nat} {f : Slice → SHeader → SRes E α} {f' : Slice → SHeader → SRes E β}
    (h : ∀ hd c, InMemory mem c → Same mem mem' d c →
      Sim (fun a b => b.2 = g a.2) (f c hd) (f' (moveSlice d c) (moveHeader d hd))) :
    Shift mem mem' d g (sTaggedExplicitG R tag mem f) (sTaggedExplicitG R tag mem' f') :=
  container_shift fun hd c hm hs => by
    have e : (moveHeader d hd).cls = hd.cls := rfl
    simp only [moved_tag (mem := mem), moved_constructed (mem := mem), e]
    split
    · simp [Sim]
    · exact Sim.bind_same fun _ _ => Sim.bind_same fun _ _ => h hd c hm hs

theorem implicit_shift {R : Rules} {tag : Nat} {f : Slice → SHeader → Nat → SRes E α}
    {f' : Slice → SHeader → Nat → SRes E β}
    (h : ∀ hd c, InMemory mem c → Same mem mem' d c →
      Sim (fun a b => b.2 = g a.2) (f c hd maxRecursion) (f' (moveSlice d c) (moveHeader d hd) maxRecursion)) :
    Shift mem mem' d g (sTaggedImplicitG R tag mem f) (sTaggedImplicitG R tag mem' f') :=
  container_shift fun hd c hm hs => by
    simp only [moved_tag (mem := mem)]
    exact Sim.bind_same fun _ _ => h hd c hm hs

theorem ofV_shift {R : Rules} {tag : Nat} (h : Shift mem mem' d g p p') :
    Shift mem mem' d (List.map g) (sOfV R tag mem p) (sOfV R tag mem' p') :=
  defined_shift fun _ c hm hs =>
    (allConsuming_shift (many0_shift (complete_shift (cut_shift h)) (c.len + 1)) c hm hs).mono
      fun a b hab => by rw [hab.1]

theorem value_of_shift (h : Shift mem mem' d g p p') {c : Slice} (hm : InMemory mem c) (hs : Same mem mem' d c) :
    Sim (fun a b => b.2 = g a.2) (p c) (p' (moveSlice d c)) :=
  (h c hm hs).mono fun a b hab => by rw [hab.1]

end

section
variable {mem mem' : Bytes} {d : Nat} {D : Deps} {R : Rules}

theorem typed_shift {tag : Nat} :
    Shift mem mem' d (moveObject d) (sParseTyped mem D R tag) (sParseTyped mem' D R tag) := by
  intro s hm hs
  have h : Sim (fun a b => b = (moveSlice d a.1, moveObject d a.2)) (sParseTyped mem D R tag s)
      (sParseTyped mem' D R tag (moveSlice d s)) := by
    cases R
    · exact parseBerWithTag_move hs
    · exact parseDerWithTag_move hs
  refine h.mono_ok fun a b ha hab => ⟨hab, ?_⟩
  obtain ⟨_, -, hb⟩ := (typed_both (D := D) (R := R) (tag := tag) s hm).ok ha
  exact hb.2.1

theorem alt_shift : ∀ (tags : List Nat) (tag : Nat),
    Shift mem mem' d (moveObject d) (sAlt (sParseTyped mem D R) tag tags) (sAlt (sParseTyped mem' D R) tag tags)
  | [], tag => typed_shift
  | t :: ts, tag => fun s hm hs => by
    have h := typed_shift (D := D) (R := R) (tag := tag) s hm hs
    have ih := alt_shift ts t s hm hs
    simp only [sAlt]
    generalize sParseTyped mem D R tag s = x at h
    generalize sParseTyped mem' D R tag (moveSlice d s) = y at h
    cases x <;> cases y <;> simp only [Sim] at h
    · exact h
    · subst h
      rename_i e
      cases e with
      | error e => exact ih
      | incomplete n => rfl
      | failure e => rfl
    · trivial
    · trivial

theorem header_move (o : SObject) : (moveObject d o).header = moveHeader d o.header := by
  cases o; simp [moveObject, SObject.header]

theorem optional_shift {p p' : Slice → SRes BerError SObject} (h : Shift mem mem' d (moveObject d) p p') :
    Shift mem mem' d (moveObject d) (sParseOptional p) (sParseOptional p') := by
  intro s hm hs
  have h := h s hm hs
  simp only [sParseOptional]
  generalize p s = x at h
  generalize p' (moveSlice d s) = y at h
  cases x <;> cases y <;> simp only [Sim] at h
  · obtain ⟨rfl, h2⟩ := h
    exact ⟨by simp [moveObject, moveContent, header_move], h2⟩
  · exact ⟨by simp [SObject.absent, moveObject, moveContent, moveHeader, SHeader.new], Tail.refl s⟩
  · trivial
  · trivial

theorem content_shift {type : Nat} (hd : SHeader) {c : Slice} (hs : Same mem mem' d c) :
    Sim (fun a b => b.2 = moveObject d a.2)
      (sParseContent mem D R type c hd maxRecursion >>? fun r => .ok (r.1, SObject.mk hd r.2))
      (sParseContent mem' D R type (moveSlice d c) (moveHeader d hd) maxRecursion >>? fun r =>
        .ok (r.1, SObject.mk (moveHeader d hd) r.2)) := by
  refine Sim.bind (P := fun a b => b = (moveSlice d a.1, moveContent d a.2)) ?_ ?_
  · cases R
    · exact readAs_move hs
    · exact derReadAs_move hs
  · rintro a _ rfl
    simp [Sim, moveObject]

theorem explicit_value {p p' : Slice → SRes BerError SObject} (h : Shift mem mem' d (moveObject d) p p')
    (t : SHeader → Nat) (ht : ∀ h, t (moveHeader d h) = t h) (hd : SHeader) (c : Slice) (hm : InMemory mem c)
    (hs : Same mem mem' d c) :
    Sim (fun a b => b.2 = moveObject d a.2)
      (p c >>? fun r => .ok (r.1, SObject.mk hd (.tagged hd.cls (t hd) r.2)))
      (p' (moveSlice d c) >>? fun r =>
        .ok (r.1, SObject.mk (moveHeader d hd) (.tagged (moveHeader d hd).cls (t (moveHeader d hd)) r.2))) := by
  refine Sim.bind (h c hm hs) ?_
  rintro a _ ⟨rfl, -⟩
  have e : (moveHeader d hd).cls = hd.cls := rfl
  simp [Sim, moveObject, moveContent, ht, e]

theorem map_shift {E α β α' β' : Type} {g : α → β} {g' : α' → β'} {p : Slice → SRes E α}
    {p' : Slice → SRes E β} {f : α → α'} {f' : β → β'} (h : Shift mem mem' d g p p')
    (hf : ∀ a, f' (g a) = g' (f a)) :
    Shift mem mem' d g' (fun s => p s >>? fun r => .ok (r.1, f r.2)) (fun s => p' s >>? fun r => .ok (r.1, f' r.2)) := by
  intro s hm hs
  refine Sim.bind (h s hm hs) ?_
  rintro a _ ⟨rfl, h2⟩
  exact ⟨by simp [hf], h2⟩

theorem moveMembers_eq (l : List SObject) : moveMembers d l = l.map (moveObject d) := by
  induction l with
  | nil => simp [moveMembers]
  | cons o l ih => simp [moveMembers, ih]

theorem move_fromSeq (l : List SObject) : SObject.fromSeq (l.map (moveObject d)) = moveObject d (.fromSeq l) := by
  simp [SObject.fromSeq, moveObject, moveContent, moveMembers_eq, moveHeader, SHeader.new]

theorem move_fromSet (l : List SObject) : SObject.fromSet (l.map (moveObject d)) = moveObject d (.fromSet l) := by
  simp [SObject.fromSet, moveObject, moveContent, moveMembers_eq, moveHeader, SHeader.new]

mutual
theorem schema_shift : ∀ x : Schema,
    Shift mem mem' d (moveObject d) (x.runAt mem D R) (x.runAt mem' D R)
  | .any => fun s hm hs => by
    have h : Sim (fun a b => b = (moveSlice d a.1, moveObject d a.2)) ((Schema.any).runAt mem D R s)
        ((Schema.any).runAt mem' D R (moveSlice d s)) := by
      cases R <;> simp only [Schema.runAt]
      · exact parseBerRecursive_move hs
      · exact parseDerRecursive_move hs
    refine h.mono_ok fun a b ha hab => ⟨hab, ?_⟩
    obtain ⟨_, -, hb⟩ := (schema_both (D := D) (R := R) .any s hm).ok ha
    exact hb.2.1
  | .typed tag => fun s hm hs => by simp only [Schema.runAt]; exact typed_shift s hm hs
  | .choice tag tags => fun s hm hs => by simp only [Schema.runAt]; exact alt_shift tags tag s hm hs
  | .sequenceOf x => fun s hm hs => by
    simp only [Schema.runAt]
    exact map_shift (ofV_shift (schema_shift x)) move_fromSeq s hm hs
  | .setOf x => fun s hm hs => by
    simp only [Schema.runAt]
    exact map_shift (ofV_shift (schema_shift x)) move_fromSet s hm hs
  | .sequence xs => fun s hm hs => by
    simp only [Schema.runAt]
    exact map_shift (defined_shift fun _ c hm hs => value_of_shift (schemas_shift xs) hm hs) move_fromSeq s hm hs
  | .set xs => fun s hm hs => by
    simp only [Schema.runAt]
    exact map_shift (defined_shift fun _ c hm hs => value_of_shift (schemas_shift xs) hm hs) move_fromSet s hm hs
  | .explicit tag x => fun s hm hs => by
    simp only [Schema.runAt]
    exact explicit_shift (fun hd c => explicit_value (schema_shift x) (fun _ => tag) (fun _ => rfl) hd c) s hm hs
  | .implicit tag type => fun s hm hs => by
    simp only [Schema.runAt]
    exact implicit_shift (fun hd c _ hs => content_shift hd hs) s hm hs
  | .optional x => fun s hm hs => by
    simp only [Schema.runAt]
    exact optional_shift (schema_shift x) s hm hs
  | .explicitOptional tag x => fun s hm hs => by
    simp only [Schema.runAt]
    exact optional_shift (explicit_shift
      (fun hd c => explicit_value (schema_shift x) (fun h => h.tag) (fun _ => rfl) hd c)) s hm hs
theorem schemas_shift : ∀ xs : List Schema,
    Shift mem mem' d (List.map (moveObject d)) (Schema.runAllAt mem D R xs) (Schema.runAllAt mem' D R xs)
  | [] => fun s hm hs => by
    simp only [Schema.runAllAt]
    exact ⟨rfl, Tail.refl s⟩
  | x :: xs => fun s hm hs => by
    simp only [Schema.runAllAt]
    refine Sim.bind (schema_shift x s hm hs) ?_
    rintro a _ ⟨rfl, h2⟩
    refine Sim.bind (schemas_shift xs a.1 (h2.inMemory hm) (hs.sub h2.within)) ?_
    rintro c _ ⟨rfl, g2⟩
    exact ⟨rfl, h2.trans g2⟩
end

end

end Verif.Lemmas
