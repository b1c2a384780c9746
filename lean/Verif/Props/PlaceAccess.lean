import Verif.SliceAccess
import Verif.Props.PlaceSchema
import Verif.Props.Framing
/-!
# Property C142: accessors lend the octets of the input
-/
namespace Verif
open Outcome Spec Lemmas

/-- One call of an accessor of `o`, of an iterator over `o` or of the index operator lends `o'`. -/
inductive Spec.Lends : SObject → SObject → Prop
  | sequence {o o' : SObject} {l : List SObject} : o.content.asSequence = .ok l → o' ∈ l → Lends o o'
  | set {o o' : SObject} {l : List SObject} : o.content.asSet = .ok l → o' ∈ l → Lends o o'
  | optional {o o' : SObject} : o.content.asOptional = .ok (some o') → Lends o o'
  | tagged {o o' : SObject} {cls : Class} {tag : Nat} : o.content.asTagged = .ok (cls, tag, o') → Lends o o'
  | next {o o' : SObject} {i : Nat} : (SRefIter.mk o i).next.1 = some o' → Lends o o'
  | index {o o' : SObject} {i : Nat} : o.index i = .ok o' → Lends o o'

/-- Some number of such calls, one after the other, lead from `o` to `o'`. -/
inductive Spec.Leads : SObject → SObject → Prop
  | here {o : SObject} : Leads o o
  | step {o o' o'' : SObject} : Lends o o' → Leads o' o'' → Leads o o''

/-- A call of an accessor of the contents lends the slice `t`. -/
def Spec.LendsSlice (c : SContent) (t : Slice) : Prop :=
  c.asSlice = .ok t ∨ c.asStr = .ok t ∨ c.asOid = .ok t ∨ c.asOidVal = .ok t ∨ c.asBitstring = .ok t

/-- C142: the octets of what an accessor lends are what the accessor gives on lists of octets; the
objects lent, read out, are the objects given there; the errors are the same. -/
theorem C142_refines (mem : Bytes) (c : SContent) :
    c.asSlice.map (Slice.read mem) = (c.read mem).asSlice ∧
    c.asStr.map (Slice.read mem) = (c.read mem).asStr ∧
    c.asOid.map (Slice.read mem) = (c.read mem).asOid ∧
    c.asOidVal.map (Slice.read mem) = (c.read mem).asOid ∧
    c.asBitstring.map (Slice.read mem) = (c.read mem).asBitstring ∧
    c.asSequence.map (List.map (SObject.read mem)) = (c.read mem).asSequence ∧
    c.asSet.map (List.map (SObject.read mem)) = (c.read mem).asSet ∧
    c.asOptional.map (Option.map (SObject.read mem)) = (c.read mem).asOptional ∧
    c.asTagged.map (fun t => (t.1, t.2.1, t.2.2.read mem)) = (c.read mem).asTagged := by
  cases c <;>
    simp [SContent.read, SContent.asSlice, Content.asSlice, SContent.asStr, Content.asStr, SContent.asOid,
      SContent.asOidVal, Content.asOid, SContent.asBitstring, Content.asBitstring, SContent.asSequence, Content.asSequence,
      SContent.asSet, Content.asSet, SContent.asOptional, Content.asOptional, SContent.asTagged, Content.asTagged,
      readAll_eq, SAny.read]

/-- C142: so do the iterator and the index operator. -/
theorem C142_refines_members (mem : Bytes) (o : SObject) (i : Nat) :
    (SRefIter.mk o i).next.1.map (SObject.read mem) = (RefIter.mk (o.read mem) i).next.1 ∧
    (SRefIter.mk o i).next.2.idx = (RefIter.mk (o.read mem) i).next.2.idx ∧
    (o.index i).map (SObject.read mem) = (o.read mem).index i := by
  obtain ⟨h, c⟩ := o
  refine ⟨?_, rfl, ?_⟩
  · cases c <;> simp only [SRefIter.next, RefIter.next, SObject.read, SObject.content, BerObject.content, SContent.read,
      readAll_eq, List.length_map, Option.map_none]
    all_goals split <;> simp
  · cases c <;> simp only [SObject.index, BerObject.index, SObject.read, SObject.content, BerObject.content, SContent.read,
      readAll_eq, List.length_map, map_panic]
    all_goals
      split
      · rename_i hlt
        simp [List.getElem?_eq_getElem hlt]
      · simp

/-- C142: an accessor lends a slice that the contents hold, and it is the only one they hold: two
accessors that both succeed lend the same slice. -/
theorem C142_lends (c : SContent) (t : Slice) (h : LendsSlice c t) : contentSlices c = [t] := by
  unfold LendsSlice at h
  cases c <;> simp_all [SContent.asSlice, SContent.asStr, SContent.asOid, SContent.asOidVal, SContent.asBitstring,
    contentSlices]

/-- C142: a text is also lent as a slice, and so is a bit string, but not an object identifier. -/
theorem C142_as_slice (c : SContent) (t : Slice) :
    (c.asStr = .ok t → c.asSlice = .ok t) ∧ (c.asBitstring = .ok t → c.asSlice = .ok t) ∧
    (c.asOid = .ok t → c.asSlice = .err .berTypeError) := by
  cases c <;> simp [SContent.asSlice, SContent.asStr, SContent.asBitstring, SContent.asOid]

/-- C142: of an object that lies in the element `e`, the accessors lend the contents octets of `e`, all of
them, or for a BIT STRING all but the first. -/
theorem C142_contents (e : Slice) (o : SObject) (t : Slice) (hp : Placed e o) (h : LendsSlice o.content t) :
    ∃ c, FramedAt e o.header c ∧
      match o.content with
      | .bitString _ _ => 0 < c.len ∧ t = ⟨c.off + 1, c.len - 1⟩
      | _ => t = c := by
  obtain ⟨hf, hc⟩ := hp
  rename_i c h' x
  refine ⟨c, hf, ?_⟩
  have hl := C142_lends _ _ h
  simp only [SObject.content] at hl ⊢
  cases hc with
  | whole hw => cases x <;> simp_all [WholeAt, contentSlices]
  | sequence hm => simp [LendsSlice, SObject.content, SContent.asSlice, SContent.asStr, SContent.asOid, SContent.asOidVal,
      SContent.asBitstring] at h
  | set hm => simp [LendsSlice, SObject.content, SContent.asSlice, SContent.asStr, SContent.asOid, SContent.asOidVal,
      SContent.asBitstring] at h

/-- C142: of an object that lies in the element `e`, `as_sequence` and `as_set` lend members that together
make up the contents octets of `e`. -/
theorem C142_members (e : Slice) (o : SObject) (l : List SObject) (hp : Placed e o)
    (h : o.content.asSequence = .ok l ∨ o.content.asSet = .ok l) :
    ∃ c, FramedAt e o.header c ∧ MembersAt c l := by
  obtain ⟨hf, hc⟩ := hp
  refine ⟨_, hf, ?_⟩
  cases hc with
  | whole hw =>
    rename_i x
    cases x <;> simp_all [WholeAt, SObject.content, SContent.asSequence, SContent.asSet]
  | sequence hm => simp_all [SObject.content, SContent.asSequence, SContent.asSet]
  | set hm => simp_all [SObject.content, SContent.asSequence, SContent.asSet]

private theorem member_sublist {o : SObject} : ∀ {l : List SObject}, o ∈ l →
    (contentSlices o.content).Sublist (memberSlices l)
  | [], h => by simp at h
  | a :: l, h => by
    rw [memberSlices]
    rcases List.mem_cons.mp h with rfl | h
    · refine List.Sublist.trans ?_ (List.sublist_append_left _ _)
      obtain ⟨hd, c⟩ := o
      rw [slices]
      exact List.sublist_append_right _ _
    · exact (member_sublist h).trans (List.sublist_append_right _ _)

private theorem lends_sublist {o o' : SObject} (h : Lends o o') :
    (contentSlices o'.content).Sublist (contentSlices o.content) := by
  obtain ⟨hd, c⟩ := o
  cases h with
  | sequence h hm =>
    cases c <;> simp [SObject.content, SContent.asSequence] at h
    subst h
    simpa only [SObject.content, contentSlices] using member_sublist hm
  | set h hm =>
    cases c <;> simp [SObject.content, SContent.asSet] at h
    subst h
    simpa only [SObject.content, contentSlices] using member_sublist hm
  | optional h =>
    cases c <;> simp [SObject.content, SContent.asOptional] at h
    rename_i a
    subst h
    obtain ⟨hd', c'⟩ := a
    simp [SObject.content, contentSlices]
  | tagged h =>
    cases c <;> simp [SObject.content, SContent.asTagged] at h
    rename_i a
    obtain ⟨-, -, rfl⟩ := h
    obtain ⟨hd', c'⟩ := a
    simp only [SObject.content, contentSlices, slices]
    exact List.sublist_append_right _ _
  | next h =>
    cases c <;> simp [SObject.content, SRefIter.next] at h
    all_goals
      simpa only [SObject.content, contentSlices] using member_sublist (List.mem_of_getElem? h.2)
  | index h =>
    cases c <;> simp only [SObject.content, SObject.index, reduceCtorEq] at h
    all_goals
      split at h
      · rename_i hlt
        simp only [List.getElem?_eq_getElem hlt, Outcome.ok.injEq] at h
        subst h
        simpa only [SObject.content, contentSlices] using member_sublist (List.getElem_mem _)
      · simp at h

/-- C142: what calls lead to holds no slices but those of the object they began with, in the same order. -/
theorem C142_leads (o o' : SObject) (h : Leads o o') :
    (contentSlices o'.content).Sublist (contentSlices o.content) := by
  induction h with
  | here => exact List.Sublist.refl _
  | step h _ ih => exact ih.trans (lends_sublist h)

/-- C142: of an object that a composed parser returned, every slice lent, after any number of calls, is a
part of the octets consumed: it lies in the input and ends before the remainder begins. -/
theorem C142_input (mem : Bytes) (D : Deps) (R : Rules) (x : Schema) (s : Slice) (hs : InMemory mem s)
    (r : Slice) (o o' : SObject) (t : Slice) (h : x.runAt mem D R s = .ok (r, o)) (hl : Leads o o')
    (ht : LendsSlice o'.content t) : PartOf t s ∧ EndsBefore t r := by
  refine (C139_zero_copy mem D R x s hs r o h).1 t ?_
  have h1 := (C142_leads o o' hl).subset
  rw [C142_lends _ _ ht] at h1
  obtain ⟨hd, c⟩ := o
  rw [slices]
  exact List.mem_append_right _ (h1 (by simp))

/-- C142: the same for `parse_ber` and `parse_der`. -/
theorem C142_input_parse (mem : Bytes) (D : Deps) (s : Slice) (hs : InMemory mem s)
    (r : Slice) (o o' : SObject) (t : Slice) (h : sParseBer mem D s = .ok (r, o) ∨ sParseDer mem D s = .ok (r, o))
    (hl : Leads o o') (ht : LendsSlice o'.content t) : PartOf t s ∧ EndsBefore t r := by
  refine C134_zero_copy mem D s hs r o h t ?_
  have h1 := (C142_leads o o' hl).subset
  rw [C142_lends _ _ ht] at h1
  obtain ⟨hd, c⟩ := o
  rw [slices]
  exact List.mem_append_right _ (h1 (by simp))

private theorem placed_lends {e : Slice} {o o' : SObject} (hp : Placed e o) (h : Lends o o') :
    ∃ e', Placed e' o' ∧ PartOf e' e := by
  have mem : ∀ {l : List SObject} {c : Slice}, MembersAt c l → ∀ o' ∈ l, ∃ e', Placed e' o' ∧ PartOf e' c := by
    intro l
    induction l with
    | nil => simp
    | cons a l ih =>
      intro c hm o' ho
      cases hm with
      | cons ha hl =>
        rcases List.mem_cons.mp ho with rfl | ho
        · exact ⟨_, ha, by simp only [PartOf]; omega⟩
        · obtain ⟨e', h1, h2⟩ := ih hl o' ho
          exact ⟨e', h1, by simp only [PartOf] at *; omega⟩
  obtain ⟨hf, hc⟩ := hp
  rename_i c hd x
  have key : ∃ e', Placed e' o' ∧ PartOf e' c := by
    cases hc with
    | whole hw =>
      cases h with
      | sequence h hm => cases x <;> simp_all [WholeAt, SObject.content, SContent.asSequence]
      | set h hm => cases x <;> simp_all [WholeAt, SObject.content, SContent.asSet]
      | optional h => cases x <;> simp_all [WholeAt, SObject.content, SContent.asOptional]
      | tagged h => cases x <;> simp_all [WholeAt, SObject.content, SContent.asTagged]
      | next h => cases x <;> simp_all [WholeAt, SObject.content, SRefIter.next]
      | index h => cases x <;> simp_all [WholeAt, SObject.content, SObject.index]
    | sequence hm | set hm =>
      refine mem hm o' ?_
      cases h with
      | sequence h hm => simp_all [SObject.content, SContent.asSequence]
      | set h hm => simp_all [SObject.content, SContent.asSet]
      | optional h => simp_all [SObject.content, SContent.asOptional]
      | tagged h => simp_all [SObject.content, SContent.asTagged]
      | next h =>
        simp [SObject.content, SRefIter.next] at h
        exact List.mem_of_getElem? h.2
      | index h =>
        simp only [SObject.content, SObject.index] at h
        split at h
        · rename_i hlt
          simp only [List.getElem?_eq_getElem hlt, Outcome.ok.injEq] at h
          subst h
          exact List.getElem_mem _
        · simp at h
  obtain ⟨e', h1, h2⟩ := key
  exact ⟨e', h1, within_trans h2 (framed_within hf)⟩

/-- C142: of an object that lies in the element `e`, calls lead only to objects that lie in elements inside
`e`; by `C142_contents`, what these lend are the contents octets of elements inside `e`. -/
theorem C142_elements (e : Slice) (o o' : SObject) (hp : Placed e o) (h : Leads o o') :
    ∃ e', Placed e' o' ∧ PartOf e' e := by
  induction h generalizing e with
  | here => exact ⟨e, hp, within_self e⟩
  | step h _ ih =>
    obtain ⟨e', h1, h2⟩ := placed_lends hp h
    obtain ⟨e'', h3, h4⟩ := ih e' h1
    exact ⟨e'', h3, within_trans h4 h2⟩

/-- C142: `parse_ber_slice` and `parse_der_slice` lend the contents octets of the element at the start of
the input, whose tag is the one asked for, and the remainder is the slice behind the element. -/
theorem C142_slice (R : Rules) (tag : Nat) (mem : Bytes) (s : Slice) (hs : InMemory mem s) (r c : Slice)
    (h : sParseSlice R tag mem s = .ok (r, c)) :
    ∃ n hdr, 0 < n ∧ n ≤ s.len ∧ r = ⟨s.off + n, s.len - n⟩ ∧ FramedAt ⟨s.off, n⟩ hdr c ∧ hdr.tag = tag := by
  obtain ⟨n, hdr, c', left, h1, h2, h3, h4, h5⟩ := C134_container R mem s hs _ r c h
  obtain ⟨u, h6, h7⟩ := bind_eq_ok.mp h5
  simp only [Outcome.ok.injEq, Prod.mk.injEq] at h7
  obtain ⟨-, rfl⟩ := h7
  refine ⟨n, hdr, h1, h2, h3, h4, ?_⟩
  unfold Header.assertTag at h6
  split at h6
  · assumption
  · simp at h6

/-- C142: their results are those on lists of octets. -/
theorem C142_slice_refines (R : Rules) (tag : Nat) (mem : Bytes) (s : Slice) (hs : InMemory mem s) :
    (sParseSlice R tag mem s).map (fun p => (p.1.read mem, p.2.read mem)) = parseSlice R tag (s.read mem) := by
  refine Sim.eq (P := fun a b => (a.1.read mem, a.2.read mem) = b) ?_ fun _ _ h => h
  refine Sim.bind (frame_sim hs) ?_
  rintro t b ⟨h1, h2, h3, -, -, h6, -⟩
  rw [← h1, ← h2, ← h3]
  cases hx : (t.2.1.read mem).assertTag tag <;> simp [hx, Lemmas.Sim, liftRes, Outcome.mapErr]

/-- C142: an object moved to another address lends the moved slices. -/
theorem C142_moved (d : Nat) (c : SContent) :
    (moveContent d c).asSlice = c.asSlice.map (moveSlice d) ∧
    (moveContent d c).asStr = c.asStr.map (moveSlice d) ∧
    (moveContent d c).asOid = c.asOid.map (moveSlice d) ∧
    (moveContent d c).asBitstring = c.asBitstring.map (moveSlice d) := by
  cases c <;> simp [moveContent, SContent.asSlice, SContent.asStr, SContent.asOid, SContent.asBitstring, moveAny]

/-! ## Examples

`30 0b 02 01 05 03 02 04 f0 0c 02 41 42` at address 1: a SEQUENCE of an INTEGER, a BIT STRING and a
UTF8String. -/

private def exMem : Bytes :=
  [0xaa, 0x30, 0x0b, 0x02, 0x01, 0x05, 0x03, 0x02, 0x04, 0xf0, 0x0c, 0x02, 0x41, 0x42, 0xff]
private def exDeps : Deps := ⟨fun _ _ => .error .invalidDateTime, fun _ _ => .error .invalidDateTime,
  fun _ => [], fun _ _ => true⟩

private def exInt : SObject := .mk ⟨.universal, false, 2, .definite 1, some ⟨3, 1⟩⟩ (.integer ⟨5, 1⟩)
private def exBits : SObject := .mk ⟨.universal, false, 3, .definite 2, some ⟨6, 1⟩⟩ (.bitString 4 ⟨9, 1⟩)
private def exText : SObject := .mk ⟨.universal, false, 12, .definite 2, some ⟨10, 1⟩⟩ (.str .utf8 ⟨12, 2⟩)
private def exObject : SObject :=
  .mk ⟨.universal, true, 16, .definite 11, some ⟨1, 1⟩⟩ (.sequence [exInt, exBits, exText])

private theorem exParsed : sParseBer exMem exDeps ⟨1, 14⟩ = .ok (⟨14, 1⟩, exObject) := by rfl
private theorem exLeads : Leads exObject exText := .step (.index (i := 2) rfl) .here

example := C142_input_parse exMem exDeps ⟨1, 14⟩ (by simp [InMemory, exMem]) ⟨14, 1⟩ exObject exText ⟨12, 2⟩
  (.inl exParsed) exLeads (.inr (.inl rfl))
example := C142_input exMem exDeps .ber .any ⟨1, 14⟩ (by simp [InMemory, exMem]) ⟨14, 1⟩ exObject exBits ⟨9, 1⟩
  (by rfl) (.step (.next (i := 1) rfl) .here) (.inl rfl)
example : ∃ e', Placed e' exBits := by
  obtain ⟨n, -, -, -, hp⟩ := (C134_parse_placed exMem exDeps ⟨1, 14⟩ (by simp [InMemory, exMem]) _ _).1 exParsed
  obtain ⟨e', h, -⟩ := C142_elements _ _ exBits hp (.step (.sequence rfl (by simp)) .here)
  exact ⟨e', h⟩
example : sParseSlice .ber Tag.integer exMem ⟨3, 3⟩ = .ok (⟨6, 0⟩, ⟨5, 1⟩) := by rfl

/-- C142: `parse_ber_slice` and `as_slice` do not lend the same octets of a BIT STRING: the first keeps the
octet with the number of unused bits. -/
theorem C142_bit_string :
    sParseSlice .ber Tag.bitString [0x03, 0x02, 0x04, 0xf0] ⟨0, 4⟩ = .ok (⟨4, 0⟩, ⟨2, 2⟩) ∧
    ∃ o, sParseBer [0x03, 0x02, 0x04, 0xf0] exDeps ⟨0, 4⟩ = .ok (⟨4, 0⟩, o) ∧ o.content.asSlice = .ok ⟨3, 1⟩ :=
  ⟨rfl, _, rfl, rfl⟩

end Verif
