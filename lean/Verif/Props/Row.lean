import Verif.Props.Schema
import Verif.Props.SetOrder
import Verif.Props.Cuts
import Verif.Props.Serialize
/-!
# Documents in a row: C115
-/
namespace Verif
open Outcome Spec

/-- C115: what a parser accepts whole is not the beginning of anything else that it accepts whole. -/
theorem C115_prefix_free (D : Deps) (R : Rules) (s : Schema) (hs : s.isOptional = false) (e t : Bytes)
    (o o' : BerObject) (h : s.run D R e = .ok ([], o)) (h' : s.run D R (e ++ t) = .ok ([], o')) : t = [] ∧ o = o' := by
  rw [C97_extension D R s hs e [] t o h] at h'
  simp only [List.nil_append, ok.injEq, Prod.mk.injEq] at h'
  exact h'

example := C115_prefix_free Tests.D0 .der .any rfl [0x30, 0x02, 0x05, 0x00] [] _ _ rfl rfl

/-- C115: octet strings that a parser accepts, one after the other, are read as the same objects one after the other,
whatever follows. -/
theorem C115_row (D : Deps) (R : Rules) (s : Schema) (hs : s.isOptional = false) (rest : Bytes) :
    ∀ ps : List (Bytes × BerObject), (∀ p ∈ ps, s.run D R p.1 = .ok ([], p.2)) →
      Items (s.run D R) ((ps.map Prod.fst).flatten ++ rest) (ps.map Prod.snd) rest
  | [], _ => .nil rest
  | p :: ps, h => by
    have h1 := h p List.mem_cons_self
    obtain ⟨w, e1, e2⟩ := C97_suffix D R s _ _ _ h1
    rw [List.append_nil] at e1
    have h2 := C97_extension D R s hs _ _ ((ps.map Prod.fst).flatten ++ rest) _ h1
    rw [List.nil_append] at h2
    have h3 := e2 hs
    simp only [List.map_cons, List.flatten_cons, List.append_assoc]
    refine .cons _ _ _ _ _ h2 ?_ (C115_row D R s hs rest ps fun q hq => h q (List.mem_cons_of_mem _ hq))
    simp only [List.length_append, e1]
    omega

/-- C115: no other list of octet strings accepted by the parser has the same octets. -/
theorem C115_unique (D : Deps) (R : Rules) (s : Schema) (hs : s.isOptional = false) :
    ∀ ps qs : List (Bytes × BerObject), (∀ p ∈ ps, s.run D R p.1 = .ok ([], p.2)) →
      (∀ q ∈ qs, s.run D R q.1 = .ok ([], q.2)) → (ps.map Prod.fst).flatten = (qs.map Prod.fst).flatten → ps = qs
  | [], [], _, _, _ => rfl
  | [], q :: qs, _, h2, e => by
    obtain ⟨w, e1, e2⟩ := C97_suffix D R s _ _ _ (h2 q List.mem_cons_self)
    have := congrArg List.length e
    have := e2 hs
    rw [List.append_nil] at e1
    simp only [List.map_nil, List.map_cons, List.flatten_nil, List.flatten_cons, List.length_append, List.length_nil,
      e1] at *
    omega
  | p :: ps, [], h1, _, e => by
    obtain ⟨w, e1, e2⟩ := C97_suffix D R s _ _ _ (h1 p List.mem_cons_self)
    have := congrArg List.length e
    have := e2 hs
    rw [List.append_nil] at e1
    simp only [List.map_nil, List.map_cons, List.flatten_nil, List.flatten_cons, List.length_append, List.length_nil,
      e1] at *
    omega
  | p :: ps, q :: qs, h1, h2, e => by
    have a := C97_extension D R s hs _ _ (ps.map Prod.fst).flatten _ (h1 p List.mem_cons_self)
    have b := C97_extension D R s hs _ _ (qs.map Prod.fst).flatten _ (h2 q List.mem_cons_self)
    simp only [List.map_cons, List.flatten_cons] at e
    rw [e, b] at a
    simp only [List.nil_append, ok.injEq, Prod.mk.injEq] at a
    rw [← a.1] at e
    have hp : p = q := Prod.ext (List.append_cancel_right e) a.2.symm
    rw [hp, C115_unique D R s hs ps qs (fun x hx => h1 x (List.mem_cons_of_mem _ hx))
      (fun x hx => h2 x (List.mem_cons_of_mem _ hx)) a.1.symm]

example := C115_unique Tests.D0 .der .any rfl [([0x02, 0x01, 0x05], _), ([0x05, 0x00], _)] [([0x02, 0x01, 0x05], _), ([0x05, 0x00], _)]
  (by simp only [List.forall_mem_cons]; exact ⟨rfl, rfl, by simp⟩) (by simp only [List.forall_mem_cons]; exact ⟨rfl, rfl, by simp⟩) rfl

/-- C115: nor has a list of other octet strings that `parse_ber` accepts with any recursion limit. -/
theorem C115_ber_unique (D : Deps) (es fs : List Bytes) (he : ∀ e ∈ es, ∃ d o, parseBerRecursive D d e = .ok ([], o))
    (hf : ∀ f ∈ fs, ∃ d o, parseBerRecursive D d f = .ok ([], o)) (h : es.flatten = fs.flatten) : es = fs :=
  framed_flatten_unique (fun e h => by obtain ⟨d, o, h⟩ := he e h; exact read_framed h)
    (fun f h => by obtain ⟨d, o, h⟩ := hf f h; exact read_framed h) h

example := C115_ber_unique Tests.D0 [[0x02, 0x01, 0x05], [0x05, 0x00]] [[0x02, 0x01, 0x05], [0x05, 0x00]]
  (by simp only [List.forall_mem_cons]; exact ⟨⟨50, _, rfl⟩, ⟨1, _, rfl⟩, by simp⟩)
  (by simp only [List.forall_mem_cons]; exact ⟨⟨50, _, rfl⟩, ⟨1, _, rfl⟩, by simp⟩) rfl

/-- C115: what `to_vec` writes for several objects, one after the other, is read back by `parse_ber`. -/
theorem C115_written (D : Deps) (rest : Bytes) : ∀ os : List BerObject, (∀ o ∈ os, Wf D 50 o) →
    ∃ es : List Bytes, os.map (toVec D) = es.map .ok ∧ ((∀ e ∈ es, e.length < 2 ^ 64) →
      ∃ os', Items (parseBer D) (es.flatten ++ rest) os' rest ∧ os'.map erase = os.map erase)
  | [], _ => ⟨[], rfl, fun _ => ⟨[], .nil rest, rfl⟩⟩
  | o :: os, h => by
    obtain ⟨e, h1, h2⟩ := C46_serialize_parse D o (h o List.mem_cons_self)
    obtain ⟨es, h3, h4⟩ := C115_written D rest os fun x hx => h x (List.mem_cons_of_mem _ hx)
    refine ⟨e :: es, by simp [h1, h3], fun hl => ?_⟩
    obtain ⟨o', h5, h6⟩ := h2 (hl e List.mem_cons_self) (es.flatten ++ rest)
    obtain ⟨os', h7, h8⟩ := h4 fun x hx => hl x (List.mem_cons_of_mem _ hx)
    refine ⟨o' :: os', ?_, by simp [h6, h8]⟩
    rw [List.flatten_cons, List.append_assoc]
    refine .cons _ _ _ _ _ h5 ?_ h7
    obtain ⟨e', c, e1, hF, -⟩ := parseBerRecursive_iff.1 h5
    have := framed_nonempty hF
    have := congrArg List.length e1
    simp only [List.length_append] at *
    omega

example := C115_written Tests.D0 [9] [.fromObj (.integer [5]), .fromObj .null]
  (by
    simp only [List.forall_mem_cons, List.not_mem_nil, false_imp_iff, implies_true, and_true]
    exact ⟨.leaf 49 _ _ (by decide) ⟨rfl, rfl⟩, .leaf 49 _ _ (by decide) ⟨rfl, rfl⟩⟩)

/-- What a reader of a stream of documents does: `n` times it reads a document as `readStream` does, then goes on
behind what it has read.  The answers, and what was not read. -/
def Spec.readDocs {α : Type} (p : Bytes → IRes BerError α) (fuel : Nat) : Nat → Bytes → List (IRes BerError α) × Bytes
  | 0, src => ([], src)
  | n + 1, src =>
    match readStream p src fuel 0 with
    | none => ([], src)
    | some (r, k) => (r :: (readDocs p fuel n (src.drop k)).1, (readDocs p fuel n (src.drop k)).2)

/-- C115: a reader of a stream that always fetches as many octets as are asked for gets the documents one by one and
has fetched nothing behind the last one. -/
theorem C115_stream (D : Deps) (d fuel : Nat) (rest : Bytes) : ∀ es : List Bytes,
    (∀ e ∈ es, (∃ h c, Framed 50 e h c) ∧ NoTagCut e ∧ e.length < fuel) →
      readDocs (parseBerRecursive D (d + 1)) fuel es.length (es.flatten ++ rest) =
        (es.map (parseBerRecursive D (d + 1)), rest)
  | [], _ => rfl
  | e :: es, h => by
    obtain ⟨⟨hd, c, hF⟩, h1, h2⟩ := h e List.mem_cons_self
    have ih := C115_stream D d fuel rest es fun x hx => h x (List.mem_cons_of_mem _ hx)
    rw [List.flatten_cons, List.append_assoc, List.length_cons, readDocs,
      C82_read_stream D d e (es.flatten ++ rest) c hd hF h1 fuel h2]
    simp only [List.drop_left, ih, List.map_cons]

example : Items (Schema.any.run Tests.D0 .der) ([0x02, 0x01, 0x05] ++ [0x05, 0x00] ++ [0xff])
    [.mk ⟨.universal, false, 2, .definite 1, some [2]⟩ (.integer [5]), .mk ⟨.universal, false, 5, .definite 0, some [5]⟩ .null]
    [0xff] :=
  C115_row Tests.D0 .der .any rfl [0xff] [([0x02, 0x01, 0x05], _), ([0x05, 0x00], _)] (by
    simp only [List.forall_mem_cons]
    exact ⟨rfl, rfl, by simp⟩)

/-- The condition on optional parsers is needed: nothing at all is accepted, and anything begins with it. -/
example : (Schema.optional (.typed 5)).run Tests.D0 .ber [] = .ok ([], .fromObj .optionalNone) ∧
    ∃ o, (Schema.optional (.typed 5)).run Tests.D0 .ber ([] ++ [5, 0]) = .ok ([], o) := ⟨rfl, _, rfl⟩

end Verif
