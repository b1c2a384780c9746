import Verif.Props.Access
import Verif.Props.Der
/-!
# Size of parsed trees: C76
-/
namespace Verif
open Outcome Spec

namespace Spec

/-- Number of input octets that a content points to (its payload is a slice of the input, apart from
BOOLEAN, NULL, ENUMERATED and times, which are converted). -/
def payload : Content → Nat
  | .integer s | .octetString s | .oid s | .relativeOid s | .universalString s | .bmpString s
  | .str _ s => s.length
  | .bitString _ s => s.length + 1
  | .unknown a => a.data.length
  | .boolean _ => 1
  | _ => 0

/-- Two octets for the header and the octets of the payload, over all objects of a listing. -/
def totalSize (l : List (BerObject × Nat)) : Nat := (l.map fun e => 2 + payload e.1.content).sum

end Spec

theorem totalSize_append (l l' : List (BerObject × Nat)) :
    totalSize (l ++ l') = totalSize l + totalSize l' := by
  simp [totalSize]

theorem leaf_payload {D : Deps} {h : Header} {c : Bytes} {x : Content} (H : Leaf D h c x) :
    payload x ≤ c.length := by
  cases x <;> simp only [Leaf] at H <;> simp only [payload]
  case boolean => obtain ⟨-, -, -, b, rfl, -⟩ := H; simp
  case bitString => rw [H.2.2.2]; simp
  case integer | octetString | oid | relativeOid => rw [H.2.2]; exact Nat.le_refl _
  case universalString => rw [H.2.2.2]; exact Nat.le_refl _
  case bmpString => rw [H.2.2.2.1]; exact Nat.le_refl _
  case str => rw [H.2.2.2.1]; exact Nat.le_refl _
  case unknown => rw [H.1]; exact Nat.le_refl _
  all_goals omega

theorem leaf_preorder {D : Deps} {h : Header} {c : Bytes} {x : Content} (H : Leaf D h c x) (d : Nat) :
    preorderC x d = [] := by
  cases x <;> simp only [Leaf] at H <;> rfl

theorem framed_length {n : Nat} {e c : Bytes} {h : Header} (H : Framed n e h c) :
    2 + c.length ≤ e.length := by
  obtain ⟨hb, post, hB, rfl, -⟩ := framed_infix H
  have := berHeader_nonempty hB
  simp only [List.length_append]
  omega

/-- Weight and depth of the objects below a content. -/
theorem denotes_size {D : Deps} {k : Nat} {h : Header} {c : Bytes} {x : Content}
    (H : Denotes D k h c x) : ∀ d, payload x + totalSize (preorderC x d) ≤ c.length ∧
      ∀ e ∈ preorderC x d, 2 * (e.2 - d) + payload e.1.content ≤ c.length ∧ d < e.2 := by
  have list : ∀ (items : List Item), (∀ it ∈ items, Framed 50 it.bytes it.header it.body) →
      (∀ it ∈ items, ∀ d, payload it.value + totalSize (preorderC it.value d) ≤ it.body.length ∧
        ∀ e ∈ preorderC it.value d, 2 * (e.2 - d) + payload e.1.content ≤ it.body.length ∧ d < e.2) →
      ∀ d, totalSize (preorderL (items.map fun it => .mk it.header it.value) (d + 1)) ≤
          (items.flatMap Item.bytes).length ∧
        ∀ e ∈ preorderL (items.map fun it => .mk it.header it.value) (d + 1),
          2 * (e.2 - d) + payload e.1.content ≤ (items.flatMap Item.bytes).length ∧ d < e.2 := by
    intro items
    induction items with
    | nil => intro _ _ d; exact ⟨Nat.le_refl _, by simp [preorderL]⟩
    | cons it items ih =>
      intro hF hI d
      obtain ⟨h1, h2⟩ := ih (fun x hx => hF x (List.mem_cons_of_mem _ hx))
        (fun x hx => hI x (List.mem_cons_of_mem _ hx)) d
      obtain ⟨h3, h4⟩ := hI it List.mem_cons_self (d + 1)
      have h5 := framed_length (hF it List.mem_cons_self)
      rw [List.map_cons, preorderL, preorder, List.flatMap_cons, List.length_append]
      constructor
      · rw [totalSize_append]
        have : totalSize ((BerObject.mk it.header it.value, d + 1) :: preorderC it.value (d + 1)) =
            2 + payload it.value + totalSize (preorderC it.value (d + 1)) := by
          simp [totalSize, BerObject.content]
        omega
      · intro e he
        simp only [List.cons_append, List.mem_cons, List.mem_append] at he
        rcases he with rfl | he | he
        · have : payload (BerObject.mk it.header it.value).content = payload it.value := rfl
          dsimp only
          omega
        · have := h4 e he
          omega
        · have := h2 e he
          omega
  induction H with
  | leaf _ h c x hL =>
    intro d
    rw [leaf_preorder hL]
    have := leaf_payload hL
    exact ⟨by simp [totalSize]; exact this, by simp⟩
  | sequence k h items _ _ _ hF _ ih =>
    intro d
    obtain ⟨h1, h2⟩ := list items hF ih d
    rw [preorderC]
    exact ⟨by simp only [payload]; omega, h2⟩
  | set k h items _ _ _ hF _ ih =>
    intro d
    obtain ⟨h1, h2⟩ := list items hF ih d
    rw [preorderC]
    exact ⟨by simp only [payload]; omega, h2⟩

/-! ## C76 -/

/-- C76: the headers (at least two octets each) and payloads of all objects of a returned tree fit in
the consumed octets: a parsed tree is never larger than the input. -/
theorem C76_size (D : Deps) (i rem : Bytes) (o : BerObject) (d : Nat) (hr : Returned D i rem o) :
    totalSize (preorder o d) + rem.length ≤ i.length := by
  obtain ⟨e, c, rfl, hF, hc⟩ := returned_root hr
  have h2 := framed_length hF
  have h3 : payload o.content + totalSize (preorderC o.content d) ≤ c.length := by
    rcases hc with hc | ⟨hd, k, -, -, -, hD⟩
    · rw [hc]; simp [payload, preorderC, totalSize]
    · exact (denotes_size hD d).1
  cases o with
  | mk h x =>
    rw [preorder]
    simp only [BerObject.content] at h3
    have : totalSize ((BerObject.mk h x, d) :: preorderC x d) =
        2 + payload x + totalSize (preorderC x d) := by
      simp [totalSize, BerObject.content]
    rw [List.length_append]
    omega

example := C76_size Tests.D0 [0x30, 0x06, 0x05, 0x00, 0x30, 0x02, 0x05, 0x00, 0xaa] [0xaa] _ 0 (returned_ber rfl)

/-- C76: at most one object for every two octets consumed. -/
theorem C76_count (D : Deps) (i rem : Bytes) (o : BerObject) (d : Nat) (hr : Returned D i rem o) :
    2 * (preorder o d).length + rem.length ≤ i.length := by
  have h1 := C76_size D i rem o d hr
  have h2 : ∀ l : List (BerObject × Nat), 2 * l.length ≤ totalSize l := by
    intro l
    induction l with
    | nil => simp
    | cons e l ih => simp only [totalSize, List.map_cons, List.sum_cons, List.length_cons] at *; omega
  have := h2 (preorder o d)
  omega

example := C76_count Tests.D0 [0x30, 0x06, 0x05, 0x00, 0x30, 0x02, 0x05, 0x00, 0xaa] [0xaa] _ 0 (returned_ber rfl)

/-- C76: an object nested `k` levels deep has at least `2 * k` octets of headers around it, besides its
own header and payload. -/
theorem C76_depth (D : Deps) (i rem : Bytes) (o o' : BerObject) (d d' : Nat) (hr : Returned D i rem o)
    (hm : (o', d') ∈ preorder o d) :
    2 * (d' - d) + 2 + payload o'.content + rem.length ≤ i.length ∧ d ≤ d' := by
  obtain ⟨e, c, rfl, hF, hc⟩ := returned_root hr
  have h2 := framed_length hF
  cases o with
  | mk h x =>
    simp only [BerObject.content] at hc
    have h3 : payload x ≤ c.length ∧ ∀ e ∈ preorderC x d,
        2 * (e.2 - d) + payload e.1.content ≤ c.length ∧ d < e.2 := by
      rcases hc with hc | ⟨hd, k, -, -, -, hD⟩
      · rw [hc]; simp [payload, preorderC]
      · have := denotes_size hD d
        exact ⟨by omega, this.2⟩
    rw [preorder] at hm
    rw [List.length_append]
    rcases List.mem_cons.1 hm with hm | hm
    · cases hm
      simp only [BerObject.content]
      omega
    · have := h3.2 _ hm
      dsimp only at this
      omega

example : ∃ o, parseBer Tests.D0 [0x30, 0x06, 0x05, 0x00, 0x30, 0x02, 0x05, 0x00, 0xaa] = .ok ([0xaa], o) ∧
    (preorder o 0).length = 4 := ⟨_, rfl, rfl⟩

end Verif
