import Verif.Lemmas.SliceSchemaMove
import Verif.Props.Place
import Verif.Props.Schema
/-!
# Property C139: where the parts of an object read by a composed parser lie
-/
namespace Verif
open Outcome Spec Lemmas

/-- C139: forgetting where the slices lie gives the results of the composition on lists of octets, with
the same errors. -/
theorem C139_refines (mem : Bytes) (D : Deps) (R : Rules) (x : Schema) (s : Slice) (hs : InMemory mem s) :
    (x.runAt mem D R s).map (fun p => (p.1.read mem, p.2.read mem)) = x.run D R (s.read mem) :=
  (schema_both x s hs).eq fun a b h => by rw [h.1, h.2.2.1]

/-- C139: the calls return: no subtraction of positions and no cut panics. -/
theorem C139_returns (mem : Bytes) (D : Deps) (R : Rules) (x : Schema) (s : Slice) (hs : InMemory mem s) :
    (x.runAt mem D R s).Returns := by
  have h := C97_total D R x (s.read mem)
  rw [← C139_refines mem D R x s hs] at h
  simpa using h

/-- C139: a returned object lies in the octets read as the composition says, and the remainder is the
slice behind them. -/
theorem C139_placed (mem : Bytes) (D : Deps) (R : Rules) (x : Schema) (s : Slice) (hs : InMemory mem s)
    (r : Slice) (o : SObject) (h : x.runAt mem D R s = .ok (r, o)) :
    ∃ n, n ≤ s.len ∧ r = ⟨s.off + n, s.len - n⟩ ∧ SchemaAt x ⟨s.off, n⟩ o := by
  obtain ⟨b, -, -, h2, -, h4⟩ := (schema_both x s hs).ok h
  simp only [Tail] at h2
  refine ⟨r.off - s.off, by omega, ?_, h4⟩
  obtain ⟨off, len⟩ := r
  simp only [Slice.mk.injEq] at *
  omega

/-- The slices of a list of components. -/
private theorem components_join {off n m : Nat} {l l' : List Slice}
    (h1 : (∀ t ∈ l, PartOf t ⟨off, n⟩) ∧ l.Pairwise EndsBefore)
    (h2 : (∀ t ∈ l', PartOf t ⟨off + n, m⟩) ∧ l'.Pairwise EndsBefore) :
    (∀ t ∈ l ++ l', PartOf t ⟨off, n + m⟩) ∧ (l ++ l').Pairwise EndsBefore := by
  simp only [List.mem_append, List.pairwise_append]
  refine ⟨?_, h1.2, h2.2, ?_⟩
  · rintro t (ht | ht)
    · have := h1.1 t ht; simp only [PartOf] at *; omega
    · have := h2.1 t ht; simp only [PartOf] at *; omega
  · intro t ht u hu
    have := h1.1 t ht
    have := h2.1 u hu
    simp only [PartOf, EndsBefore] at *; omega

/-- A header in front of what lies at the start of its contents. -/
private theorem framed_join {e c : Slice} {n : Nat} {h : SHeader} {l : List Slice} (hf : FramedAt e h c)
    (hn : n ≤ c.len) (hl : (∀ t ∈ l, PartOf t ⟨c.off, n⟩) ∧ l.Pairwise EndsBefore) :
    (∀ t ∈ h.rawTag.toList ++ l, PartOf t e) ∧ (h.rawTag.toList ++ l).Pairwise EndsBefore := by
  have hw := framed_within hf
  obtain ⟨k, hk1, hk2, hk3⟩ := hf.raw
  simp only [hk1, Option.toList_some, List.cons_append, List.nil_append, List.mem_cons, List.pairwise_cons]
  refine ⟨?_, ?_, hl.2⟩
  · rintro t (rfl | ht)
    · simp only [PartOf] at *; omega
    · have := hl.1 t ht; simp only [PartOf] at *; omega
  · intro t ht
    have := hl.1 t ht
    simp only [PartOf, EndsBefore] at *; omega

/-- What lies in the contents of a header that is not kept. -/
private theorem built_join {e c : Slice} {n : Nat} {h h' : SHeader} {l : List Slice} (hf : FramedAt e h c)
    (hb : BuiltHeader h') (hn : n ≤ c.len) (hl : (∀ t ∈ l, PartOf t ⟨c.off, n⟩) ∧ l.Pairwise EndsBefore) :
    (∀ t ∈ h'.rawTag.toList ++ l, PartOf t e) ∧ (h'.rawTag.toList ++ l).Pairwise EndsBefore := by
  have hb' : h'.rawTag = none := hb
  have := framed_within hf
  simp only [hb', Option.toList_none, List.nil_append]
  refine ⟨fun t ht => ?_, hl.2⟩
  have := hl.1 t ht
  simp only [PartOf] at *; omega

mutual
theorem schema_slices {x : Schema} {e : Slice} {o : SObject} : SchemaAt x e o →
    (∀ t ∈ slices o, PartOf t e) ∧ (slices o).Pairwise EndsBefore
  | .any hp => placed_slices hp
  | .typed hp _ => placed_slices hp
  | .choice hp _ => placed_slices hp
  | .sequenceOf hf _ hi hb => by
    simpa only [slices, contentSlices] using built_join hf hb (Nat.le_refl _) (items_slices hi)
  | .setOf hf _ hi hb => by
    simpa only [slices, contentSlices] using built_join hf hb (Nat.le_refl _) (items_slices hi)
  | .sequence hf _ hn hi hb => by
    simpa only [slices, contentSlices] using built_join hf hb hn (components_slices hi)
  | .set hf _ hn hi hb => by
    simpa only [slices, contentSlices] using built_join hf hb hn (components_slices hi)
  | .explicit hf _ _ hn hi => by
    simpa only [slices, contentSlices] using framed_join hf hn (schema_slices hi)
  | .implicit (c := c) (n := n) (h := h) hf _ hn hc => by
    have hn' : n ≤ c.len := by
      cases hl : h.length <;> simp only [hl] at hn <;> omega
    simpa only [slices] using framed_join hf hn' (content_slices hc)
  | .present (o := .mk h c) hs => by
    simpa only [slices, contentSlices, SObject.header] using schema_slices hs
  | .absent hb => by
    have hb : _ = none := hb
    simp [slices, contentSlices, hb]
  | .explicitPresent (o := .mk h c) hs => by
    simpa only [slices, contentSlices, SObject.header] using schema_slices hs
  | .explicitAbsent hb => by
    have hb : _ = none := hb
    simp [slices, contentSlices, hb]
theorem items_slices {x : Schema} {c : Slice} {l : List SObject} : ItemsAt x c l →
    (∀ t ∈ memberSlices l, PartOf t c) ∧ (memberSlices l).Pairwise EndsBefore
  | .nil => by simp [memberSlices]
  | .cons _ hs hl => by
    simpa only [memberSlices] using components_join (schema_slices hs) (items_slices hl)
theorem components_slices {xs : List Schema} {c : Slice} {l : List SObject} : ComponentsAt xs c l →
    (∀ t ∈ memberSlices l, PartOf t c) ∧ (memberSlices l).Pairwise EndsBefore
  | .nil => by simp [memberSlices]
  | .cons hs hl => by
    simpa only [memberSlices] using components_join (schema_slices hs) (components_slices hl)
end

/-- C139: all slices of an object that lies in `e` as a composition says are parts of `e`; in the order
of the fields, each ends before the next begins. -/
theorem C139_slices (x : Schema) (e : Slice) (o : SObject) (h : SchemaAt x e o) :
    (∀ t ∈ slices o, PartOf t e) ∧ (slices o).Pairwise EndsBefore := schema_slices h

/-- C139: the bytes of the input are not copied: every slice of a returned object is a part of the
input, none overlaps the remainder, and no two of them overlap. -/
theorem C139_zero_copy (mem : Bytes) (D : Deps) (R : Rules) (x : Schema) (s : Slice) (hs : InMemory mem s)
    (r : Slice) (o : SObject) (h : x.runAt mem D R s = .ok (r, o)) :
    (∀ t ∈ slices o, PartOf t s ∧ EndsBefore t r) ∧ (slices o).Pairwise EndsBefore := by
  obtain ⟨n, hn, rfl, hp⟩ := C139_placed mem D R x s hs r o h
  have hc := C139_slices x _ o hp
  refine ⟨fun t ht => ?_, hc.2⟩
  have := hc.1 t ht
  simp only [PartOf, EndsBefore] at *
  omega

/-- C139: the same octets at another address, in any other memory, give the same object with all slices
moved, or the same error. -/
theorem C139_moved (mem mem' : Bytes) (D : Deps) (R : Rules) (x : Schema) (s : Slice) (d : Nat)
    (hs : InMemory mem s) (h : (moveSlice d s).read mem' = s.read mem) :
    x.runAt mem' D R (moveSlice d s)
      = (x.runAt mem D R s).map fun p => (moveSlice d p.1, moveObject d p.2) :=
  ((schema_shift x s hs (same_of_read h)).eq fun _ _ h => h.1.symm).symm

/-! ## Examples

`30 09 a0 03 02 01 05 81 02 41 42 ff` at address 1: a SEQUENCE of an INTEGER under the explicit tag 0 and
a string under the implicit tag 1. -/

private def exMem : Bytes :=
  [0xaa, 0x30, 0x09, 0xa0, 0x03, 0x02, 0x01, 0x05, 0x81, 0x02, 0x41, 0x42, 0xff]
private def exDeps : Deps := ⟨fun _ _ => .error .invalidDateTime, fun _ _ => .error .invalidDateTime,
  fun _ => [], fun _ _ => true⟩
private def exSchema : Schema :=
  .sequence [.explicitOptional 0 (.typed 2), .optional (.typed 1), .implicit 1 4]

/-- The object read from the example. -/
private def exObject : SObject :=
  .mk ⟨.universal, true, 16, .definite 0, none⟩ (.sequence [
    .mk ⟨.contextSpecific, true, 0, .definite 3, some ⟨3, 1⟩⟩ (.optionalSome
      (.mk ⟨.contextSpecific, true, 0, .definite 3, some ⟨3, 1⟩⟩ (.tagged .contextSpecific 0
        (.mk ⟨.universal, false, 2, .definite 1, some ⟨5, 1⟩⟩ (.integer ⟨7, 1⟩))))),
    .mk ⟨.universal, false, 0, .definite 0, none⟩ .optionalNone,
    .mk ⟨.contextSpecific, false, 1, .definite 2, some ⟨8, 1⟩⟩ (.octetString ⟨10, 2⟩)])

example : InMemory exMem ⟨1, 12⟩ := by simp [InMemory, exMem]
example : exSchema.runAt exMem exDeps .ber ⟨1, 12⟩ = .ok (⟨12, 1⟩, exObject) := by rfl
example : exSchema.runAt exMem exDeps .der ⟨1, 12⟩ = .ok (⟨12, 1⟩, exObject) := by rfl
example : slices exObject = [⟨3, 1⟩, ⟨5, 1⟩, ⟨7, 1⟩, ⟨8, 1⟩, ⟨10, 2⟩] := by rfl
example := C139_placed exMem exDeps .der exSchema ⟨1, 12⟩ (by simp [InMemory, exMem]) ⟨12, 1⟩ exObject rfl
example := C139_zero_copy exMem exDeps .ber exSchema ⟨1, 12⟩ (by simp [InMemory, exMem]) ⟨12, 1⟩ exObject rfl
example := C139_moved exMem (0xbb :: exMem) exDeps .ber exSchema ⟨1, 12⟩ 1 (by simp [InMemory, exMem]) rfl

/-- A SEQUENCE OF whose elements are read to the end of the contents. -/
example : (Schema.sequenceOf (.typed 2)).runAt [0x30, 0x06, 0x02, 0x01, 0x05, 0x02, 0x01, 0x07] exDeps .ber ⟨0, 8⟩
    = .ok (⟨8, 0⟩, .mk ⟨.universal, true, 16, .definite 0, none⟩ (.sequence [
      .mk ⟨.universal, false, 2, .definite 1, some ⟨2, 1⟩⟩ (.integer ⟨4, 1⟩),
      .mk ⟨.universal, false, 2, .definite 1, some ⟨5, 1⟩⟩ (.integer ⟨7, 1⟩)])) := by rfl

/-- C139: the object of a SEQUENCE read by components does not tell where the SEQUENCE was: its header is
built, without raw tag and with length 0; `parse_ber` on the same octets keeps the header. -/
theorem C139_header_lost :
    ∃ o o', (Schema.sequence [.typed 2]).runAt [0x30, 0x03, 0x02, 0x01, 0x05] exDeps .ber ⟨0, 5⟩ = .ok (⟨5, 0⟩, o) ∧
      Schema.any.runAt [0x30, 0x03, 0x02, 0x01, 0x05] exDeps .ber ⟨0, 5⟩ = .ok (⟨5, 0⟩, o') ∧
      o.header.rawTag = none ∧ o'.header.rawTag = some ⟨0, 1⟩ :=
  ⟨_, _, rfl, rfl, rfl, rfl⟩

end Verif
