import Verif.Lemmas.SliceMove
import Verif.Props.Total
import Verif.Props.Der
/-!
# Property C134: where the parts of a parsed object lie
-/
namespace Verif
open Outcome Spec Lemmas

/-- C134: forgetting where the slices lie gives the results of the parsers on lists of octets, with
the same errors. -/
theorem C134_refines (mem : Bytes) (D : Deps) (s : Slice) (hs : InMemory mem s) :
    let f := fun p : Slice × SObject => (p.1.read mem, p.2.read mem)
    (sParseBer mem D s).map f = parseBer D (s.read mem) ∧
    (sParseDer mem D s).map f = parseDer D (s.read mem) ∧
    (∀ n, (sParseBerRecursive mem D n s).map f = parseBerRecursive D n (s.read mem)) ∧
    (∀ n, (sParseDerRecursive mem D n s).map f = parseDerRecursive D n (s.read mem)) ∧
    (∀ tag, (sParseBerWithTag mem D tag s).map f = parseBerWithTag D tag (s.read mem)) ∧
    (∀ tag, (sParseDerWithTag mem D tag s).map f = parseDerWithTag D tag (s.read mem)) := by
  have key : ∀ (a : Slice × SObject) (b : Bytes × BerObject), ParseRel mem s a b →
      (a.1.read mem, a.2.read mem) = b := fun a b h => by rw [h.1, h.2.1]
  exact ⟨(parseBerRecursive_sim hs).eq key, (parseDerRecursive_sim hs).eq key,
    fun _ => (parseBerRecursive_sim hs).eq key, fun _ => (parseDerRecursive_sim hs).eq key,
    fun _ => (parseBerWithTag_sim hs).eq key, fun _ => (parseDerWithTag_sim hs).eq key⟩

/-- A result on slices: the object lies in the first `n` octets of the input and the remainder is
the rest. -/
def Spec.InPlace (s : Slice) (r : Slice) (o : SObject) : Prop :=
  ∃ n, 0 < n ∧ n ≤ s.len ∧ r = ⟨s.off + n, s.len - n⟩ ∧ Placed ⟨s.off, n⟩ o

theorem inPlace_of {mem : Bytes} {s : Slice} {p : Slice × SObject} {b : Bytes × BerObject}
    (h : ParseRel mem s p b) : InPlace s p.1 p.2 := by
  obtain ⟨-, -, ht, hlt, hp⟩ := h
  simp only [Tail] at ht
  refine ⟨p.1.off - s.off, by omega, by omega, ?_, hp⟩
  obtain ⟨⟨off, len⟩, o⟩ := p
  simp only [Slice.mk.injEq] at *
  omega

/-- C134: a returned object lies in place in the element at the start of the input, and the remainder
is the slice behind it. -/
theorem C134_placed (mem : Bytes) (D : Deps) (s : Slice) (hs : InMemory mem s) (r : Slice)
    (o : SObject) :
    (∀ n, sParseBerRecursive mem D n s = .ok (r, o) → InPlace s r o) ∧
    (∀ n, sParseDerRecursive mem D n s = .ok (r, o) → InPlace s r o) ∧
    (∀ tag, sParseBerWithTag mem D tag s = .ok (r, o) → InPlace s r o) ∧
    (∀ tag, sParseDerWithTag mem D tag s = .ok (r, o) → InPlace s r o) := by
  have key {x : SRes BerError SObject} {y : IRes BerError BerObject}
      (h : Sim (ParseRel mem s) x y) (hx : x = .ok (r, o)) : InPlace s r o := by
    obtain ⟨b, -, hb⟩ := h.ok hx
    exact inPlace_of hb
  exact ⟨fun _ => key (parseBerRecursive_sim hs), fun _ => key (parseDerRecursive_sim hs),
    fun _ => key (parseBerWithTag_sim hs), fun _ => key (parseDerWithTag_sim hs)⟩

/-- C134: for `parse_ber` and `parse_der`. -/
theorem C134_parse_placed (mem : Bytes) (D : Deps) (s : Slice) (hs : InMemory mem s) (r : Slice)
    (o : SObject) :
    (sParseBer mem D s = .ok (r, o) → InPlace s r o) ∧
    (sParseDer mem D s = .ok (r, o) → InPlace s r o) :=
  ⟨(C134_placed mem D s hs r o).1 _, (C134_placed mem D s hs r o).2.1 _⟩

/-- C134: the subtraction of positions in `ber_get_object_content` and the cuts at the difference
never panic: the calls return. -/
theorem C134_returns (mem : Bytes) (D : Deps) (s : Slice) (hs : InMemory mem s) (n : Nat) :
    (sParseBerRecursive mem D n s).Returns ∧ (sParseDerRecursive mem D n s).Returns := by
  have h := C134_refines mem D s hs
  have h1 := C01_parse_ber_recursive_total D n (s.read mem)
  have h2 := C02_parse_der_recursive_total D n (s.read mem)
  rw [← h.2.2.1 n] at h1
  rw [← h.2.2.2.1 n] at h2
  exact ⟨by simpa using h1, by simpa using h2⟩

theorem within_self (c : Slice) : PartOf c c := ⟨Nat.le_refl _, Nat.le_refl _⟩

/-- The contents lie inside the element. -/
theorem framed_within {e c : Slice} {h : SHeader} (hf : FramedAt e h c) : PartOf c e := by
  obtain ⟨⟨k, -, -, hk⟩, hl⟩ := hf
  cases hlen : h.length <;> simp only [hlen] at hl <;> simp only [PartOf] <;> omega

theorem whole_slices {h : SHeader} {c : Slice} {x : SContent} (hw : WholeAt h c x) :
    (∀ t ∈ contentSlices x, PartOf t c) ∧ (contentSlices x).Pairwise EndsBefore := by
  cases x <;> simp only [WholeAt] at hw <;> simp only [contentSlices] <;>
    (try simp) <;> (try exact hw ▸ within_self _)
  · rw [hw.2]; simp only [PartOf]; omega
  · rw [hw.1]; exact within_self c

mutual
theorem placed_slices {e : Slice} {o : SObject} : Placed e o →
    (∀ t ∈ slices o, PartOf t e) ∧ (slices o).Pairwise EndsBefore
  | .mk (c := c) (h := h) hf hc => by
    have hs := content_slices hc
    have hw := framed_within hf
    obtain ⟨k, hk1, hk2, hk3⟩ := hf.raw
    simp only [slices, hk1, Option.toList_some, List.cons_append, List.nil_append,
      List.mem_cons, List.pairwise_cons]
    refine ⟨?_, ?_, hs.2⟩
    · rintro t (rfl | ht)
      · simp only [PartOf] at *; omega
      · exact within_trans (hs.1 t ht) hw
    · intro t ht
      have := hs.1 t ht
      simp only [PartOf, EndsBefore] at *; omega
theorem content_slices {h : SHeader} {c : Slice} {x : SContent} : ContentAt h c x →
    (∀ t ∈ contentSlices x, PartOf t c) ∧ (contentSlices x).Pairwise EndsBefore
  | .whole hw => whole_slices hw
  | .sequence hm => by simpa only [contentSlices] using member_slices hm
  | .set hm => by simpa only [contentSlices] using member_slices hm
theorem member_slices {c : Slice} {l : List SObject} : MembersAt c l →
    (∀ t ∈ memberSlices l, PartOf t c) ∧ (memberSlices l).Pairwise EndsBefore
  | .nil => by simp [memberSlices]
  | .cons hp hm => by
    have h1 := placed_slices hp
    have h2 := member_slices hm
    simp only [memberSlices, List.mem_append, List.pairwise_append]
    refine ⟨?_, h1.2, h2.2, ?_⟩
    · rintro t (ht | ht)
      · have := h1.1 t ht; simp only [PartOf] at *; omega
      · have := h2.1 t ht; simp only [PartOf] at *; omega
    · intro t ht u hu
      have := h1.1 t ht
      have := h2.1 u hu
      simp only [PartOf, EndsBefore] at *; omega
end

/-- C134: all slices of an object that lies in `e` are parts of `e`; in the order of the fields, each
ends before the next begins, so no two of them share an octet. -/
theorem C134_slices (e : Slice) (o : SObject) (h : Placed e o) :
    (∀ t ∈ slices o, PartOf t e) ∧ (slices o).Pairwise EndsBefore := placed_slices h

/-- C134: the bytes of the input are not copied: every slice of a returned object is a part of the
input, and none overlaps the remainder. -/
theorem C134_zero_copy (mem : Bytes) (D : Deps) (s : Slice) (hs : InMemory mem s) (r : Slice)
    (o : SObject) (h : sParseBer mem D s = .ok (r, o) ∨ sParseDer mem D s = .ok (r, o)) :
    ∀ t ∈ slices o, PartOf t s ∧ EndsBefore t r := by
  have hp : InPlace s r o :=
    h.elim (C134_parse_placed mem D s hs r o).1 (C134_parse_placed mem D s hs r o).2
  obtain ⟨n, hn, hn', rfl, hp⟩ := hp
  intro t ht
  have := (C134_slices _ _ hp).1 t ht
  simp only [PartOf, EndsBefore] at *
  omega

/-- C134: the same octets at another address, in any other memory, give the same object with all
slices moved, or the same error: nothing outside the input is looked at. -/
theorem C134_moved (mem mem' : Bytes) (D : Deps) (s : Slice) (d : Nat)
    (h : (moveSlice d s).read mem' = s.read mem) :
    let f := fun p : Slice × SObject => (moveSlice d p.1, moveObject d p.2)
    (∀ n, sParseBerRecursive mem' D n (moveSlice d s) = (sParseBerRecursive mem D n s).map f) ∧
    (∀ n, sParseDerRecursive mem' D n (moveSlice d s) = (sParseDerRecursive mem D n s).map f) ∧
    (∀ tag, sParseBerWithTag mem' D tag (moveSlice d s) = (sParseBerWithTag mem D tag s).map f) ∧
    (∀ tag, sParseDerWithTag mem' D tag (moveSlice d s) = (sParseDerWithTag mem D tag s).map f) := by
  have hs := same_of_read h
  have key : ∀ (a b : Slice × SObject), b = (moveSlice d a.1, moveObject d a.2) →
      (moveSlice d a.1, moveObject d a.2) = b := fun _ _ h => h.symm
  exact ⟨fun _ => ((parseBerRecursive_move hs).eq key).symm,
    fun _ => ((parseDerRecursive_move hs).eq key).symm,
    fun _ => ((parseBerWithTag_move hs).eq key).symm,
    fun _ => ((parseDerWithTag_move hs).eq key).symm⟩

/-- C134: the closure of a container is called once, with the header and the contents octets of the
element at the start of the input, and the remainder is the slice behind the element, whatever the
closure leaves over. -/
theorem C134_container {E O : Type} [ParseErr E] (R : Rules) (mem : Bytes) (s : Slice)
    (hs : InMemory mem s) (f : Slice → SHeader → SRes E O) (r : Slice) (v : O)
    (h : sContainer R mem f s = .ok (r, v)) :
    ∃ n hdr c left, 0 < n ∧ n ≤ s.len ∧ r = ⟨s.off + n, s.len - n⟩ ∧ FramedAt ⟨s.off, n⟩ hdr c ∧
      f c hdr = .ok (left, v) := by
  obtain ⟨t, ht, hv⟩ := bind_eq_ok.mp h
  obtain ⟨w, hw, hr⟩ := bind_eq_ok.mp hv
  obtain ⟨b, -, -, -, -, h4, h5, -, h7⟩ := (frame_sim (E := E) hs).ok ht
  simp only [Outcome.ok.injEq, Prod.mk.injEq] at hr
  simp only [Tail] at h4
  refine ⟨t.1.off - s.off, t.2.1, t.2.2, w.1, by omega, by omega, ?_, h7, ?_⟩
  · rw [← hr.1]
    obtain ⟨⟨off, len⟩, _⟩ := t
    simp only [Slice.mk.injEq] at *
    omega
  · rw [hw, ← hr.2]

/-- C134: the containers on slices and on lists of octets give the same, if the closures do. -/
theorem C134_container_refines {E O : Type} [ParseErr E] (R : Rules) (mem : Bytes) (s : Slice)
    (hs : InMemory mem s) (f : Slice → SHeader → SRes E O) (g : Bytes → Header → IRes E O)
    (hfg : ∀ c hdr, InMemory mem c →
      (f c hdr).map (fun p => (p.1.read mem, p.2)) = g (c.read mem) (hdr.read mem)) :
    (sContainer R mem f s).map (fun p => (p.1.read mem, p.2)) = container R g (s.read mem) := by
  refine Sim.eq (P := fun a b => (a.1.read mem, a.2) = b) ?_ fun _ _ h => h
  refine Sim.bind (frame_sim hs) ?_
  rintro t b ⟨h1, h2, h3, -, -, h6, -⟩
  rw [← h1, ← h2, ← h3, ← hfg _ _ h6]
  cases f t.2.2 t.2.1 <;> simp [Sim]

/-! ## Examples

`30 08 02 01 05 03 03 04 f0 80 ff` at address 2 in a memory of 14 octets: a SEQUENCE of an INTEGER and
a BIT STRING, followed by `ff`. -/

private def exMem : Bytes := [0xaa, 0xaa, 0x30, 0x08, 0x02, 0x01, 0x05, 0x03, 0x03, 0x04, 0xf0, 0xb0, 0xff, 0xaa]
private def exDeps : Deps := ⟨fun _ _ => .error .invalidDateTime, fun _ _ => .error .invalidDateTime,
  fun _ => [], fun _ _ => true⟩

/-- The object read from the example. -/
private def exObject : SObject :=
  .mk ⟨.universal, true, 16, .definite 8, some ⟨2, 1⟩⟩ (.sequence [
    .mk ⟨.universal, false, 2, .definite 1, some ⟨4, 1⟩⟩ (.integer ⟨6, 1⟩),
    .mk ⟨.universal, false, 3, .definite 3, some ⟨7, 1⟩⟩ (.bitString 4 ⟨10, 2⟩)])

example : InMemory exMem ⟨2, 11⟩ := by simp [InMemory, exMem]
example : sParseBer exMem exDeps ⟨2, 11⟩ = .ok (⟨12, 1⟩, exObject) := by rfl
example : sParseDer exMem exDeps ⟨2, 11⟩ = .ok (⟨12, 1⟩, exObject) := by rfl
example : slices exObject = [⟨2, 1⟩, ⟨4, 1⟩, ⟨6, 1⟩, ⟨7, 1⟩, ⟨10, 2⟩] := by rfl
example : sParseBer (exMem.drop 1) exDeps ⟨1, 11⟩
    = .ok (⟨11, 1⟩, .mk ⟨.universal, true, 16, .definite 8, some ⟨1, 1⟩⟩ (.sequence [
    .mk ⟨.universal, false, 2, .definite 1, some ⟨3, 1⟩⟩ (.integer ⟨5, 1⟩),
    .mk ⟨.universal, false, 3, .definite 3, some ⟨6, 1⟩⟩ (.bitString 4 ⟨9, 2⟩)])) := by rfl

/-- A container: the closure answers with its own slices. -/
example : sContainer (E := BerError) .ber exMem (fun c h => .ok (c, (c, h.rawTag))) ⟨2, 11⟩
    = .ok (⟨12, 1⟩, (⟨4, 8⟩, some ⟨2, 1⟩)) := by rfl

/-- An indefinite length: the contents end two octets before the element. -/
example : sParseBer [0x30, 0x80, 0x05, 0x00, 0x00, 0x00, 0x01] exDeps ⟨0, 7⟩
    = .ok (⟨6, 1⟩, .mk ⟨.universal, true, 16, .indefinite, some ⟨0, 1⟩⟩ (.sequence [
      .mk ⟨.universal, false, 5, .definite 0, some ⟨2, 1⟩⟩ .null])) := by rfl

end Verif
