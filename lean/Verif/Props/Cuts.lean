import Verif.Lemmas.Cuts
import Verif.Lemmas.Denote
import Verif.Lemmas.Nodes
/-!
# Properties C81–C82: the answer to every truncated input
-/
namespace Verif
open Outcome Spec

/-! ## C81 -/

theorem parseBerRecursive_err_of_any (D : Deps) (d : Nat) {q : Bytes} {e : NomErr BerError}
    (h : anyFromBer q = .err e) : parseBerRecursive D (d + 1) q = .err e := by
  unfold parseBerRecursive parseBerAnyR
  rw [if_neg (by omega), h]
  rfl

/-- SEQUENCE of indefinite length with a NULL and an INTEGER, cut inside the INTEGER. -/
theorem cut_small (b : Bool) : Cut b 50 [0x30, 0x80, 0x05, 0x00, 0x02, 0x03, 0x01] (.need 2) :=
  .inside 49 [0x30, 0x80] [[0x05, 0x00]] [0x02, 0x03, 0x01] _ _ (berHeader_read rfl) rfl
    (by
      simp only [List.forall_mem_cons, List.not_mem_nil, false_imp_iff, implies_true, and_true]
      exact element_null)
    (.contents 48 3 [0x02, 0x03] [0x01] _ (berHeader_read rfl) rfl (by decide))

/-- Every cut of the grammar gets its answer. -/
theorem C81_cut_answer (D : Deps) (d : Nat) (q : Bytes) (a : CutAnswer) (h : Cut false 50 q a) :
    parseBerRecursive D (d + 1) q = .err a.toErr :=
  parseBerRecursive_err_of_any D d (anyFromBer_cut h)

example (D : Deps) := C81_cut_answer D 49 _ _ (cut_small false)

/-- `Incomplete(n)` is the answer to the cuts after which `n` octets are missing and to no other input. -/
theorem C81_incomplete_iff (D : Deps) (d : Nat) (q : Bytes) (n : Nat) :
    parseBerRecursive D (d + 1) q = .err (.incomplete (.size n)) ↔ Cut false 50 q (.need n) := by
  constructor
  · intro h
    unfold parseBerRecursive parseBerAnyR at h
    rw [if_neg (by omega)] at h
    rcases bind_eq_err.1 h with h | ⟨r, _, h⟩
    · exact anyFromBer_incomplete.1 h
    · rcases bind_eq_err.1 h with h | ⟨o, _, h⟩
      · exact absurd h liftRes_ne_incomplete
      · simp at h
  · exact C81_cut_answer D d q (.need n)

/-- A byte string is a proper prefix of some element exactly if it is a strict cut. -/
theorem C81_prefix_iff (q : Bytes) :
    (∃ s h c, s ≠ [] ∧ Framed 50 (q ++ s) h c) ↔ ∃ a, Cut true 50 q a :=
  ⟨fun ⟨_, _, _, hs, h⟩ => framed_prefix h rfl hs, fun ⟨_, h⟩ => cut_framed h⟩

/-- Every proper prefix of an element is a cut, with one answer, and the parser gives it. -/
theorem C81_every_cut (D : Deps) (q s c : Bytes) (h : Header) (hs : s ≠ [])
    (H : Framed 50 (q ++ s) h c) :
    ∃ a, Cut true 50 q a ∧ (∀ a', Cut true 50 q a' → a' = a) ∧
      ∀ d, parseBerRecursive D (d + 1) q = .err a.toErr := by
  obtain ⟨a, ha⟩ := framed_prefix H rfl hs
  refine ⟨a, ha, fun a' ha' => ?_, fun d => C81_cut_answer D d q a ha.weaken⟩
  have h1 := skipElement_cut ha.weaken
  rw [skipElement_cut ha'.weaken] at h1
  cases a <;> cases a' <;> simp_all [CutAnswer.toErr]

example (D : Deps) := C81_every_cut D [0x30, 0x80, 0x05, 0x00, 0x02, 0x03, 0x01] [0x02, 0x03, 0, 0] _ _ (by simp) (framed_read rfl)

/-- The number of octets asked for is never more than what is missing. -/
theorem C81_need_le (D : Deps) (d n : Nat) (q s c : Bytes) (h : Header) (H : Framed 50 (q ++ s) h c)
    (hn : parseBerRecursive D (d + 1) q = .err (.incomplete (.size n))) : 1 ≤ n ∧ n ≤ s.length := by
  have hc := (C81_incomplete_iff D d q n).1 hn
  refine ⟨cut_need_pos hc, ?_⟩
  have hok := (anyFromBer_framed (i := q ++ s) (rem := []) (a := ⟨h, c⟩)).2 ⟨q ++ s, by simp, H⟩
  exact incomplete_lower_bound local_anyFromBer truncOk_anyFromBer (anyFromBer_incomplete.2 hc) hok

example (D : Deps) := C81_need_le D 49 2 [0x30, 0x80, 0x05, 0x00, 0x02, 0x03, 0x01] [0x02, 0x03, 0, 0] _ _ (framed_read rfl) rfl

/-- A request for more input is not a promise: the length octets `89 01` announce at least 2^64 octets,
which no continuation can turn into an element, and still more input is asked for. -/
theorem C81_hopeless (D : Deps) (d : Nat) :
    parseBerRecursive D (d + 1) [0x04, 0x89, 0x01] = .err (.incomplete (.size 8)) ∧
      (∀ s h c, ¬ Framed 50 ([0x04, 0x89, 0x01] ++ s) h c) := by
  have hh : parseBerRecursive D (d + 1) [0x04, 0x89, 0x01] = .err (.incomplete (.size 8)) :=
    parseBerRecursive_err_of_any D d rfl
  refine ⟨hh, fun s h c H => ?_⟩
  obtain ⟨i1, h1, _⟩ := anyFromBer_ok ((anyFromBer_framed (i := [0x04, 0x89, 0x01] ++ s) (rem := [])
    (a := ⟨h, c⟩)).2 ⟨_, by rw [List.append_nil], H⟩)
  obtain ⟨hb, e, H⟩ := headerFromBer_iff.1 h1
  obtain ⟨id, len, num, rfl, k1, k2, _⟩ := H.octets
  generalize h.cls = cls at k1
  generalize h.constructed = k at k1
  generalize hL : h.length = L at k2
  cases k1 with
  | high b ms last g _ _ =>
    simp only [List.cons_append, List.cons.injEq] at e
    rw [← e.1] at g
    exact absurd g (by decide)
  | low b _ =>
    simp only [List.cons_append, List.cons.injEq, List.nil_append] at e
    have e := e.2
    cases k2 with
    | short b g =>
      simp only [List.cons_append, List.cons.injEq] at e
      rw [← e.1] at g
      exact absurd g (by decide)
    | indefinite =>
      simp only [List.cons_append, List.cons.injEq] at e
      exact absurd e.1 (by decide)
    | long b ds _ _ g =>
      have := H.length_lt _ hL
      simp only [List.cons_append, List.cons.injEq] at e
      obtain ⟨rfl, e⟩ := e
      cases ds with
      | nil => exact absurd g (by decide)
      | cons x ds =>
        simp only [List.cons_append, List.cons.injEq] at e
        rw [← e.2.2.1, base256, show ds.length = 8 from by simpa using g] at this
        have h1 : (1 : UInt8).toNat * 256 ^ 8 = 2 ^ 64 := by decide
        omega

/-! ## C82 -/

/-- What a reader of a stream does with a `nom` parser: read nothing at first, then as long as the answer
is `Incomplete(n)` read `n` octets more; the result is the last answer and the number of octets read, or
nothing at the end of the stream. -/
def readStream {E α : Type} (p : Bytes → IRes E α) (src : Bytes) : Nat → Nat → Option (IRes E α × Nat)
  | 0, _ => none
  | fuel + 1, k =>
    match p (src.take k) with
    | .err (.incomplete (.size n)) => if k + n ≤ src.length then readStream p src fuel (k + n) else none
    | r => some (r, k)

/-- No proper prefix of `e` ends inside a long tag number of the elements that frame it. -/
def Spec.NoTagCut (e : Bytes) : Prop := ∀ q s, e = q ++ s → ¬ Cut true 50 q .badTag

/-- C82: a reader of a stream that starts with nothing and always fetches the octets asked for has fetched exactly the
element when it gets an answer, which is the one for the element alone. -/
theorem C82_read_stream (D : Deps) (d : Nat) (e rest c : Bytes) (h : Header) (H : Framed 50 e h c)
    (hn : NoTagCut e) (fuel : Nat) (hf : e.length < fuel) :
    readStream (parseBerRecursive D (d + 1)) (e ++ rest) fuel 0 = some (parseBerRecursive D (d + 1) e, e.length) := by
  suffices ∀ k fuel, k ≤ e.length → e.length < fuel + k →
      readStream (parseBerRecursive D (d + 1)) (e ++ rest) fuel k =
        some (parseBerRecursive D (d + 1) e, e.length) from this 0 fuel (by omega) (by omega)
  intro k fuel hk hf
  induction fuel generalizing k with
  | zero => omega
  | succ fuel ih =>
    have ht : (e ++ rest).take k = e.take k := by rw [List.take_append_of_le_length hk]
    unfold readStream
    rw [ht]
    by_cases hke : k = e.length
    · subst hke
      rw [List.take_length]
      split
      · rename_i n hx
        exfalso
        have hc := anyFromBer_incomplete.2 ((C81_incomplete_iff D d e n).1 hx)
        rw [(anyFromBer_framed (i := e) (rem := []) (a := ⟨h, c⟩)).2 ⟨e, by simp, H⟩] at hc
        simp at hc
      · rfl
    · have hs : e.drop k ≠ [] := by
        intro h0
        have := congrArg List.length h0
        rw [List.length_drop, List.length_nil] at this
        omega
      have H' := H
      rw [← List.take_append_drop k e] at H'
      obtain ⟨a, ha, _, hp⟩ := C81_every_cut D _ _ c h hs H'
      cases a with
      | badTag => exact absurd ha (hn _ _ (List.take_append_drop k e).symm)
      | need n =>
        obtain ⟨g1, g2⟩ := C81_need_le D d n _ _ c h H' (hp d)
        rw [List.length_drop] at g2
        rw [hp d]
        simp only [CutAnswer.toErr]
        rw [if_pos (by rw [List.length_append]; omega)]
        exact ih (k + n) (by omega) (by omega)

/-- For an element that the parser accepts: the reader gets the same object, whatever follows, and has read
the octets of the element and no more. -/
theorem C82_read_accepted (D : Deps) (d : Nat) (e rest : Bytes) (o : BerObject)
    (h : parseBerRecursive D (d + 1) (e ++ rest) = .ok (rest, o)) (hn : NoTagCut e) (fuel : Nat)
    (hf : e.length < fuel) :
    readStream (parseBerRecursive D (d + 1)) (e ++ rest) fuel 0 = some (.ok ([], o), e.length) := by
  have h1 := h
  unfold parseBerRecursive parseBerAnyR at h1
  rw [if_neg (by omega)] at h1
  obtain ⟨⟨i1, a⟩, h2, h3⟩ := bind_eq_ok.1 h1
  obtain ⟨_, _, h4⟩ := bind_eq_ok.1 h3
  obtain rfl : i1 = rest := congrArg Prod.fst (ok.inj h4)
  obtain ⟨e', he, H⟩ := anyFromBer_framed.1 h2
  have he := List.append_cancel_right he
  subst he
  rw [C82_read_stream D d e i1 _ _ H hn fuel hf]
  obtain ⟨pre, hp, hr⟩ := local_parseBerAnyR D (d + 1) _ _ _ h
  have hp := List.append_cancel_right hp
  subst hp
  have := hr []
  rw [List.append_nil] at this
  rw [show parseBerRecursive D (d + 1) e = .ok ([], o) from this]

/-- A stream that ends inside the element is not taken for an element, nor for an error. -/
theorem C82_end_of_stream (D : Deps) (d : Nat) (e s c : Bytes) (h : Header) (H : Framed 50 (e ++ s) h c)
    (hs : s ≠ []) (hn : NoTagCut (e ++ s)) (fuel : Nat) :
    readStream (parseBerRecursive D (d + 1)) e fuel 0 = none := by
  suffices ∀ k, k ≤ e.length → readStream (parseBerRecursive D (d + 1)) e fuel k = none from this 0 (by omega)
  induction fuel with
  | zero => intros; rfl
  | succ fuel ih =>
    intro k hk
    have hcut : e.take k ++ (e.drop k ++ s) = e ++ s := by rw [← List.append_assoc, List.take_append_drop]
    have H' := H
    rw [← hcut] at H'
    obtain ⟨a, ha, _, hp⟩ := C81_every_cut D _ _ c h (by simp [hs]) H'
    cases a with
    | badTag => exact absurd ha (hn _ _ hcut.symm)
    | need n =>
      unfold readStream
      rw [hp d]
      simp only [CutAnswer.toErr]
      split
      · exact ih _ (by assumption)
      · rfl

/-- Elements of definite length with one identifier octet have no cut inside a tag number. -/
theorem C82_no_tag_cut (hb c : Bytes) (h : Header) (b : UInt8) (H : BerHeader hb h)
    (hl : h.length = .definite c.length) (hr : h.rawTag = some [b]) : NoTagCut (hb ++ c) := by
  intro q s e hbad
  have hx := skipElement_cut hbad.weaken
  by_cases hs : s = []
  · subst hs
    rw [List.append_nil] at e
    subst e
    rw [anyFromBer_err.symm, (anyFromBer_framed (i := hb ++ c) (rem := []) (a := ⟨h, c⟩)).2
      ⟨hb ++ c, by rw [List.append_nil], .definite hb c h H hl⟩] at hx
    simp at hx
  · suffices ∃ n, Cut true 50 q (.need n) by
      obtain ⟨n, hn⟩ := this
      rw [skipElement_cut hn.weaken] at hx
      simp [CutAnswer.toErr] at hx
    rcases append_split e.symm hs with ⟨s1, k1, k2, _⟩ | ⟨q2, rfl, k2⟩
    · suffices ∃ n, HeaderCut true q (.need n) by
        obtain ⟨n, hn⟩ := this
        exact ⟨n, .header _ _ _ (by simp) hn⟩
      obtain ⟨a, ha⟩ := berHeader_prefix H k1.symm k2
      cases a with
      | need n => exact ⟨n, ha⟩
      | badTag =>
        obtain ⟨id, len, num, g1, g2, _, _, _, g6⟩ := H.octets
        rw [hr] at g6
        cases g6
        cases ha with
        | tag b' ms m1 _ _ =>
          rw [k1] at g1
          simp only [List.cons_append, List.cons.injEq] at g1
          generalize hi : [b] = i at g2
          generalize h.cls = cls at g2
          generalize h.constructed = k at g2
          cases g2 with
          | low b m2 => cases hi; rw [g1.1] at m1; exact absurd m1 m2
          | high b ms last _ _ _ => simp at hi
    · have h0 : 0 < s.length := List.length_pos_iff.2 hs
      have := congrArg List.length k2
      rw [List.length_append] at this
      exact ⟨_, .contents 49 _ hb q2 h H hl (by omega)⟩

/-! The hypotheses of C82 are met by an INTEGER of two octets. -/
theorem noTagCut_small : NoTagCut [0x02, 0x02, 0x01, 0x00] :=
  C82_no_tag_cut [0x02, 0x02] [0x01, 0x00] _ 0x02 (berHeader_read rfl) rfl rfl
example (D : Deps) := C82_read_stream D 49 [0x02, 0x02, 0x01, 0x00] [9] _ _ (framed_read rfl) noTagCut_small 5 (by decide)
example (D : Deps) := C82_read_accepted D 49 [0x02, 0x02, 0x01, 0x00] [9] _ rfl noTagCut_small 5 (by decide)
example (D : Deps) := C82_end_of_stream D 49 [0x02, 0x02, 0x01] [0x00] _ _ (framed_read rfl) (by simp) noTagCut_small 5

/-- With a long tag number the reader fails on an element that the parser accepts. -/
theorem C82_tag_counterexample (D : Deps) (fuel : Nat) :
    (∃ o, parseBerRecursive D 50 [0x9f, 0x01, 0x00] = .ok ([], o)) ∧
      readStream (parseBerRecursive D 50) [0x9f, 0x01, 0x00] (fuel + 2) 0 =
        some (.err (.error .invalidTag), 1) := ⟨⟨_, rfl⟩, rfl⟩

/-! Examples: the hypotheses are met. -/

/-- SEQUENCE of indefinite length with one INTEGER, cut inside the INTEGER. -/
example : Cut true 50 [0x30, 0x80, 0x05, 0x00, 0x02, 0x03, 0x01] (.need 2) :=
  .inside 49 [0x30, 0x80] [[0x05, 0x00]] [0x02, 0x03, 0x01] ⟨.universal, true, 16, .indefinite, some [0x30]⟩ _
    ⟨⟨[0x30], [0x80], 16, rfl, .low 0x30 (by decide), .indefinite, rfl, by decide, rfl⟩, by simp, by simp⟩ rfl
    (by
      intro e he
      rw [List.mem_singleton.1 he]
      refine .definite 48 0 [0x05, 0x00] [] ⟨.universal, false, 5, .definite 0, some [0x05]⟩
        ⟨⟨[0x05], [0x00], 5, rfl, .low 5 (by decide), .short 0 (by decide), rfl, by decide, rfl⟩,
          by intro n hn; cases hn; decide, by simp⟩ rfl rfl ?_
      rw [List.append_nil]
      intro h
      have := (looseEoc_iff (hb := [0x05, 0x00]) (c := []) (l := 0)
        (h := ⟨.universal, false, 5, .definite 0, some [0x05]⟩)
        ⟨⟨[0x05], [0x00], 5, rfl, .low 5 (by decide), .short 0 (by decide), rfl, by decide, rfl⟩,
          by intro n hn; cases hn; decide, by simp⟩ rfl rfl).1 h
      simp at this)
    (.contents 48 3 [0x02, 0x03] [0x01] ⟨.universal, false, 2, .definite 3, some [0x02]⟩
      ⟨⟨[0x02], [0x03], 2, rfl, .low 2 (by decide), .short 3 (by decide), rfl, by decide, rfl⟩,
        by intro n hn; cases hn; decide, by simp⟩ rfl (by decide))

/-- A reader of `02 02 01 00 | ff`: requests of one, one and two octets. -/
example (D : Deps) : readStream (parseBerRecursive D 50) [0x02, 0x02, 0x01, 0x00, 0xff] 5 0 =
    some (.ok ([], .mk ⟨.universal, false, 2, .definite 2, some [2]⟩ (.integer [1, 0])), 4) := rfl

end Verif
