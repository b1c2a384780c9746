import Verif.SpecCut
import Verif.Lemmas.Trunc
import Verif.Lemmas.Element
import Verif.Lemmas.Num
/-!
# Lemmas on truncated input
-/
namespace Verif
open Outcome Spec

theorem liftRes_ne_incomplete {α : Type} {x : Res α} {n : Needed} :
    liftRes x ≠ .err (.incomplete n) := by
  cases x <;> simp [liftRes]

/-! ## Headers -/

theorem tagLoop_ne_incomplete (bs : Bytes) (count c : Nat) (n : Needed) :
    tagLoop bs count c ≠ .err (.incomplete n) := by
  induction bs generalizing count c with
  | nil => simp [tagLoop]
  | cons b bs ih =>
    unfold tagLoop
    split
    · simp
    · dsimp only
      split
      · simp
      · exact ih _ _

theorem parseIdentifier_incomplete {i : Bytes} {n : Needed} :
    parseIdentifier i = .err (.incomplete n) ↔ i = [] ∧ n = .size 1 := by
  cases i with
  | nil => simp [parseIdentifier, Needed.new]; exact eq_comm
  | cons b i =>
    simp only [reduceCtorEq, false_and, iff_false]
    unfold parseIdentifier
    dsimp only
    split
    · intro h
      rcases bind_eq_err.1 h with h | ⟨r, _, h⟩
      · exact tagLoop_ne_incomplete _ _ _ _ h
      · simp at h
    · simp

theorem parseLength_incomplete {k : Outcome (NomErr BerError) Length} (hk : ∀ n, k ≠ .err (.incomplete n))
    {i : Bytes} {n : Nat} : parseLength k i = .err (.incomplete (.size n)) ↔
      (i = [] ∧ n = 1) ∨ ∃ b ds, i = b :: ds ∧ 128 < b.toNat ∧ b.toNat < 255 ∧
        ds.length < b.toNat - 128 ∧ n = b.toNat - 128 - ds.length := by
  cases i with
  | nil => simp [parseLength, Needed.new]; exact eq_comm
  | cons b i =>
    have hb := b.toNat_lt
    simp only [reduceCtorEq, false_and, false_or]
    have hx : ∀ P : UInt8 → Bytes → Prop, (∃ b' ds, b :: i = b' :: ds ∧ P b' ds) ↔ P b i := fun P =>
      ⟨fun ⟨_, _, h, hp⟩ => by cases h; exact hp, fun hp => ⟨b, i, rfl, hp⟩⟩
    rw [hx]
    unfold parseLength
    dsimp only
    split
    · simp; omega
    split
    · constructor
      · intro h
        cases k <;> simp [Outcome.map] at h
        exact absurd (by rw [h]) (hk _)
      · omega
    split
    · simp; omega
    · unfold takeStreaming
      split
      · rename_i h1 h2 h3 h4
        simp only [err_bind, err.injEq, NomErr.incomplete.injEq, Needed.new,
          if_neg (show ¬ (b.toNat % 128 - i.length = 0) by omega), Needed.size.injEq]
        omega
      · simp only [ok_bind]
        split <;> simp <;> omega

theorem headerFromBer_incomplete {i : Bytes} {n : Nat} :
    headerFromBer i = .err (.incomplete (.size n)) ↔ HeaderCut false i (.need n) := by
  have hk : ∀ a : Ident, ∀ n, (if a.constructed then (.ok .indefinite : Outcome (NomErr BerError) Length)
      else .err (.error .constructExpected)) ≠ .err (.incomplete n) := by
    intro a n; split <;> simp
  unfold headerFromBer
  constructor
  · intro h
    rcases bind_eq_err.1 h with h | ⟨⟨i1, a⟩, h1, h2⟩
    · obtain ⟨rfl, h⟩ := parseIdentifier_incomplete.1 h
      cases h
      exact .empty
    · rcases bind_eq_err.1 h2 with h2 | ⟨r, _, h2⟩
      · obtain ⟨num, h3, h4, h5, h6⟩ := parseIdentifier_iff.1 h1
        subst h3
        rcases (parseLength_incomplete (hk a)).1 h2 with ⟨g, rfl⟩ | ⟨b, ds, g, k1, k2, k3, rfl⟩
        · have g : i1 = [] := g
          subst g
          rw [List.append_nil]
          exact .noLength _ _ _ _ h4 h6
        · have g : i1 = b :: ds := g
          subst g
          exact .length _ _ _ _ b ds h4 h6 k1 k2 k3 (by simp)
      · simp at h2
  · intro h
    cases h with
    | empty => rfl
    | noLength _ cls k num h1 h2 =>
      have := (parseIdentifier_iff (i := i) (rem := []) (a := ⟨cls, k, num % 2 ^ 32, i⟩)).2
        ⟨num, by simp, h1, rfl, h2⟩
      rw [this]
      rfl
    | length id cls k num b ds h1 h2 h3 h4 h5 h6 =>
      have := (parseIdentifier_iff (i := id ++ b :: ds) (rem := b :: ds) (a := ⟨cls, k, num % 2 ^ 32, id⟩)).2
        ⟨num, rfl, h1, rfl, h2⟩
      rw [this]
      simp only [ok_bind]
      rw [(parseLength_incomplete (hk ⟨cls, k, num % 2 ^ 32, id⟩)).2 (.inr ⟨b, ds, rfl, h3, h4, h5, rfl⟩)]
      rfl

theorem headerFromBer_badTag {i : Bytes} (h : HeaderCut false i .badTag) :
    headerFromBer i = .err (.error .invalidTag) := by
  cases h with
  | tag b ms h1 h2 _ =>
    unfold headerFromBer parseIdentifier
    dsimp only
    rw [if_pos h1, tagLoop_short ms h2]
    rfl

theorem Spec.HeaderCut.weaken {s : Bool} {q : Bytes} {a : CutAnswer} (h : HeaderCut s q a) :
    HeaderCut false q a := by
  cases h with
  | empty => exact .empty
  | tag b ms h1 h2 _ => exact .tag b ms h1 h2 (by simp)
  | noLength _ cls k num h1 h2 => exact .noLength _ cls k num h1 h2
  | length id cls k num b ds h1 h2 h3 h4 h5 _ => exact .length id cls k num b ds h1 h2 h3 h4 h5 (by simp)

theorem Spec.Cut.weaken {s : Bool} {n : Nat} {q : Bytes} {a : CutAnswer} (h : Cut s n q a) :
    Cut false n q a := by
  induction h with
  | header n q a _ h => exact .header n q a (by simp) h.weaken
  | contents n l hb c h h1 h2 h3 => exact .contents n l hb c h h1 h2 h3
  | inside n hb es q h a h1 h2 h3 _ ih => exact .inside n hb es q h a h1 h2 h3 ih

theorem headerFromBer_cut {i : Bytes} {a : CutAnswer} (h : HeaderCut false i a) :
    headerFromBer i = .err a.toErr := by
  cases a with
  | need n => exact headerFromBer_incomplete.2 h
  | badTag => exact headerFromBer_badTag h

/-! ## Elements -/

/-- Header and contents, as the loop over an element of indefinite length reads them. -/
def skipElement (n : Nat) (q : Bytes) : IRes BerError Bool :=
  headerFromBer q >>? fun r => skipContent n r.2 r.1

theorem skipLoop_elements {n : Nat} {es : List Bytes} (h : ∀ e ∈ es, Element LooseEoc LooseEoc n e)
    (q : Bytes) (e : NomErr BerError) (hq : skipElement n q = .err e) (fuel : Nat)
    (hf : (es.flatten ++ q).length < fuel) :
    skipLoop (skipContent n) fuel (es.flatten ++ q) = .err e := by
  induction es generalizing fuel with
  | nil =>
    cases fuel with
    | zero => omega
    | succ fuel =>
      simp only [List.flatten_nil, List.nil_append, skipLoop]
      unfold skipElement at hq
      rcases bind_eq_err.1 hq with h1 | ⟨r, h1, h2⟩
      · rw [h1]; rfl
      · rw [h1, ok_bind, h2]; rfl
  | cons x es ih =>
    cases fuel with
    | zero => omega
    | succ fuel =>
      obtain ⟨hb, hd, body, rfl, g1, g2⟩ := skip_complete (h x (by simp))
      have := berHeader_nonempty g1
      simp only [List.flatten_cons, List.append_assoc, skipLoop]
      rw [berHeader_reads g1, ok_bind, g2, ok_bind]
      exact ih (fun e he => h e (by simp [he])) fuel (by
        simp only [List.flatten_cons, List.length_append] at hf ⊢; omega)

theorem skipElement_cut {n : Nat} {q : Bytes} {a : CutAnswer} (h : Cut false n q a) :
    skipElement n q = .err a.toErr := by
  induction h with
  | header n q a _ h => unfold skipElement; rw [headerFromBer_cut h]; rfl
  | contents n l hb c h h1 h2 h3 =>
    unfold skipElement
    rw [berHeader_reads h1, ok_bind]
    simp only [skipContent, h2]
    rw [if_neg (by omega)]
    unfold takeStreaming
    rw [if_pos h3]
    simp only [err_bind, CutAnswer.toErr, Needed.new]
    rw [if_neg (by omega)]
  | inside n hb es q h a h1 h2 h3 _ ih =>
    unfold skipElement
    rw [berHeader_reads h1, ok_bind]
    simp only [skipContent, h2, h1.indef_constructed h2, if_true]
    exact skipLoop_elements h3 q _ ih _ (by omega)

theorem skipLoop_incomplete {n : Nat} {fuel : Nat} {i : Bytes} {m : Needed}
    (h : skipLoop (skipContent n) fuel i = .err (.incomplete m)) :
    ∃ (es : List Bytes) (q : Bytes), i = es.flatten ++ q ∧ (∀ e ∈ es, Element LooseEoc LooseEoc n e) ∧
      skipElement n q = .err (.incomplete m) := by
  induction fuel generalizing i with
  | zero => simp [skipLoop] at h
  | succ fuel ih =>
    rw [skipLoop] at h
    rcases bind_eq_err.1 h with h1 | ⟨⟨i1, hd⟩, h1, h2⟩
    · exact ⟨[], i, rfl, by simp, by unfold skipElement; rw [h1]; rfl⟩
    · rcases bind_eq_err.1 h2 with h3 | ⟨⟨i2, b⟩, h3, h4⟩
      · exact ⟨[], i, rfl, by simp, by unfold skipElement; rw [h1, ok_bind]; exact h3⟩
      · obtain ⟨e, rfl, he⟩ := skip_sound h1 h3
        cases b with
        | true => simp at h4
        | false =>
          simp only [Bool.false_eq_true, if_false] at he h4
          obtain ⟨es, q, rfl, h5, h6⟩ := ih h4
          refine ⟨e :: es, q, by simp, fun x hx => ?_, h6⟩
          rcases List.mem_cons.1 hx with rfl | hx
          · exact he
          · exact h5 x hx

theorem skipElement_incomplete {n : Nat} {q : Bytes} {m : Nat}
    (h : skipElement n q = .err (.incomplete (.size m))) : Cut false n q (.need m) := by
  induction n generalizing q m with
  | zero =>
    unfold skipElement at h
    rcases bind_eq_err.1 h with h1 | ⟨r, _, h2⟩
    · exact .header _ _ _ (by simp) (headerFromBer_incomplete.1 h1)
    · simp [skipContent] at h2
  | succ n ih =>
    unfold skipElement at h
    rcases bind_eq_err.1 h with h1 | ⟨⟨i1, hd⟩, h1, h2⟩
    · exact .header _ _ _ (by simp) (headerFromBer_incomplete.1 h1)
    · obtain ⟨hb, rfl, H⟩ := headerFromBer_iff.1 h1
      simp only [skipContent] at h2
      split at h2
      · rename_i l hl
        split at h2
        · simp at h2
        · rcases bind_eq_err.1 h2 with h3 | ⟨r, _, h3⟩
          · unfold takeStreaming at h3
            split at h3
            · rename_i hlt
              simp only [err.injEq, NomErr.incomplete.injEq, Needed.new,
                if_neg (show ¬ (l - i1.length = 0) by omega), Needed.size.injEq] at h3
              subst h3
              exact .contents n l hb i1 hd H hl hlt
            · simp at h3
          · simp at h3
      · rename_i hl
        split at h2
        · obtain ⟨es, q, rfl, h5, h6⟩ := skipLoop_incomplete h2
          exact .inside n hb es q hd _ H hl h5 (ih h6)
        · simp at h2

theorem anyFromBer_err {q : Bytes} {e : NomErr BerError} :
    anyFromBer q = .err e ↔ skipElement 50 q = .err e := by
  unfold anyFromBer skipElement
  constructor
  · intro h
    rcases bind_eq_err.1 h with h1 | ⟨r, h1, h2⟩
    · rw [h1]; rfl
    · rw [h1, ok_bind]
      rcases bind_eq_err.1 h2 with h3 | ⟨s, _, h3⟩
      · unfold getObjectContent at h3
        rcases bind_eq_err.1 h3 with h4 | ⟨s, _, h4⟩
        · exact h4
        · dsimp only at h4
          split at h4
          · split at h4 <;> simp at h4
          · simp at h4
      · simp at h3
  · intro h
    rcases bind_eq_err.1 h with h1 | ⟨r, h1, h2⟩
    · rw [h1]; rfl
    · rw [h1, ok_bind]
      unfold getObjectContent
      rw [show maxRecursion = 50 from rfl, h2]
      rfl

theorem anyFromBer_cut {q : Bytes} {a : CutAnswer} (h : Cut false 50 q a) :
    anyFromBer q = .err a.toErr := anyFromBer_err.2 (skipElement_cut h)

theorem anyFromBer_incomplete {q : Bytes} {n : Nat} :
    anyFromBer q = .err (.incomplete (.size n)) ↔ Cut false 50 q (.need n) :=
  ⟨fun h => skipElement_incomplete (anyFromBer_err.1 h), fun h => anyFromBer_cut h⟩

theorem cut_need_pos {st : Bool} {n m : Nat} {q : Bytes} (h : Cut st n q (.need m)) : 1 ≤ m := by
  generalize ha : CutAnswer.need m = a at h
  induction h with
  | header n q a _ h =>
    subst ha
    cases h <;> omega
  | contents n l hb c h h1 h2 h3 => cases ha; omega
  | inside n hb es q h a h1 h2 h3 _ ih => exact ih ha

/-! ## Prefixes of elements are cuts -/

theorem identOctets_prefix {id q s : Bytes} {cls : Class} {k : Bool} {num : Nat}
    (H : IdentOctets id cls k num) (hl : id.length ≤ 6) (h : q ++ s = id) (hs : s ≠ []) :
    ∃ a, HeaderCut true q a := by
  cases q with
  | nil => exact ⟨_, .empty⟩
  | cons b q =>
    cases H with
    | low b' _ =>
      simp only [List.cons_append, List.cons.injEq, List.append_eq_nil_iff] at h
      exact absurd h.2.2 hs
    | high b' ms last h1 h2 h3 =>
      simp only [List.cons_append, List.cons.injEq] at h
      obtain ⟨rfl, h⟩ := h
      obtain ⟨s', x, rfl⟩ : ∃ s' x, s = s' ++ [x] := ⟨s.dropLast, s.getLast hs, (List.dropLast_concat_getLast hs).symm⟩
      rw [← List.append_assoc] at h
      have hm : q ++ s' = ms := (List.append_inj' h rfl).1
      refine ⟨.badTag, .tag b q h1 (fun m hm' => h2 m (by rw [← hm]; simp [hm'])) fun _ => ?_⟩
      have := congrArg List.length hm
      simp only [List.length_append, List.length_cons, List.length_nil] at this hl
      omega

theorem berHeader_prefix {hb q s : Bytes} {h : Header} (H : BerHeader hb h) (e : q ++ s = hb)
    (hs : s ≠ []) : ∃ a, HeaderCut true q a := by
  obtain ⟨id, len, num, h1, h2, h3, _, h5, _⟩ := H.octets
  subst h1
  rcases append_split e hs with ⟨s', e1, e2, _⟩ | ⟨q', rfl, e2⟩
  · exact identOctets_prefix h2 h5 e1.symm e2
  · cases q' with
    | nil => rw [List.append_nil]; exact ⟨_, .noLength _ _ _ _ h2 h5⟩
    | cons b ds =>
      generalize hL : h.length = L at h3
      cases h3 with
      | short b' _ =>
        simp only [List.cons_append, List.cons.injEq] at e2
        exact absurd (List.append_eq_nil_iff.1 e2.2.symm).2 hs
      | indefinite =>
        simp only [List.cons_append, List.cons.injEq] at e2
        exact absurd (List.append_eq_nil_iff.1 e2.2.symm).2 hs
      | long b' ds' k1 k2 k3 =>
        simp only [List.cons_append, List.cons.injEq] at e2
        obtain ⟨rfl, rfl⟩ := e2
        have hlt := H.length_lt _ hL
        rw [base256_append] at hlt
        have h0 : 0 < s.length := List.length_pos_iff.2 hs
        rw [List.length_append] at k3
        refine ⟨_, .length id _ _ _ b' ds h2 h5 k1 k2 (by omega) fun _ => ?_⟩
        rw [show b'.toNat - 128 - ds.length = s.length by omega]
        omega

theorem looseEoc_prefix {e q s : Bytes} (H : LooseEoc e) (h : q ++ s = e) (hs : s ≠ []) :
    ∃ a, HeaderCut true q a := by
  obtain ⟨hd, H, _⟩ := H
  exact berHeader_prefix H h hs

theorem elements_prefix {es : List Bytes} {t q s : Bytes} (h : q ++ s = es.flatten ++ t)
    (hs : s ≠ []) :
    ∃ es' q' s', q = List.flatten es' ++ q' ∧ s' ≠ [] ∧ (∀ e ∈ es', e ∈ es) ∧
      ((∃ e ∈ es, q' ++ s' = e) ∨ q' ++ s' = t) := by
  induction es generalizing q with
  | nil => exact ⟨[], q, s, rfl, hs, by simp, .inr (by simpa using h)⟩
  | cons e es ih =>
    rw [List.flatten_cons, List.append_assoc] at h
    rcases append_split h hs with ⟨s1, h1, h2, _⟩ | ⟨q2, rfl, h2⟩
    · exact ⟨[], q, s1, rfl, h2, by simp, .inl ⟨e, by simp, h1.symm⟩⟩
    · obtain ⟨es', q', s', k1, k2, k3, k4⟩ := ih h2.symm
      refine ⟨e :: es', q', s', by rw [k1]; simp, k2, fun x hx => ?_, ?_⟩
      · rcases List.mem_cons.1 hx with rfl | hx
        · simp
        · simp [k3 x hx]
      · rcases k4 with ⟨x, hx, k4⟩ | k4
        · exact .inl ⟨x, by simp [hx], k4⟩
        · exact .inr k4

theorem element_prefix {n : Nat} {e q s : Bytes} (H : Element LooseEoc LooseEoc n e) (h : q ++ s = e)
    (hs : s ≠ []) : ∃ a, Cut true n q a := by
  induction H generalizing q s with
  | definite n l hb c hd h1 h2 h3 _ =>
    rcases append_split h hs with ⟨s1, k1, k2, _⟩ | ⟨q2, rfl, k2⟩
    · obtain ⟨a, ha⟩ := berHeader_prefix h1 k1.symm k2
      exact ⟨a, .header _ _ _ (by simp) ha⟩
    · have h0 : 0 < s.length := List.length_pos_iff.2 hs
      have := congrArg List.length k2
      rw [List.length_append] at this
      exact ⟨_, .contents n l hb q2 hd h1 h2 (by omega)⟩
  | indefinite n hb es t hd h1 h2 h3 h4 ih =>
    rcases append_split h hs with ⟨s1, k1, k2, _⟩ | ⟨q2, rfl, k2⟩
    · obtain ⟨a, ha⟩ := berHeader_prefix h1 k1.symm k2
      exact ⟨a, .header _ _ _ (by simp) ha⟩
    · obtain ⟨es', q', s', k1, k3, k4, k5⟩ := elements_prefix k2.symm hs
      subst k1
      obtain ⟨a, ha⟩ : ∃ a, Cut true (n + 1) q' a := by
        rcases k5 with ⟨e, he, k5⟩ | k5
        · exact ih e he k5 k3
        · obtain ⟨a, ha⟩ := looseEoc_prefix h4 k5 k3
          exact ⟨a, .header _ _ _ (by simp) ha⟩
      exact ⟨a, .inside (n + 1) hb es' q' hd a h1 h2 (fun e he => h3 e (k4 e he)) ha⟩

theorem framed_prefix {n : Nat} {e q s c : Bytes} {hd : Header} (H : Framed (n + 1) e hd c) (h : q ++ s = e)
    (hs : s ≠ []) : ∃ a, Cut true (n + 1) q a := by
  cases H with
  | definite hb _ _ h1 h2 =>
    rcases append_split h hs with ⟨s1, k1, k2, _⟩ | ⟨q2, rfl, k2⟩
    · obtain ⟨a, ha⟩ := berHeader_prefix h1 k1.symm k2
      exact ⟨a, .header _ _ _ (by simp) ha⟩
    · have h0 : 0 < s.length := List.length_pos_iff.2 hs
      have := congrArg List.length k2
      rw [List.length_append] at this
      exact ⟨_, .contents n _ hb q2 hd h1 h2 (by omega)⟩
  | indefinite m hb es t _ hn h1 h2 h3 h4 =>
    rw [hn]
    exact element_prefix (.indefinite m hb es t hd h1 h2 h3 h4) h hs

/-! ## Cuts are prefixes of elements -/

theorem identOctets_len (b : UInt8) (cls : Class) (k : Bool) (num : Nat) (id : Bytes)
    (h : IdentOctets id cls k num) (hl : id.length ≤ 6) (hb : b.toNat < 128) :
    BerHeader (id ++ [b]) ⟨cls, k, num % 2 ^ 32, .definite b.toNat, some id⟩ :=
  ⟨⟨id, [b], num, rfl, h, .short b hb, rfl, hl, rfl⟩, fun n hn => by cases hn; omega, by simp⟩

theorem headerCut_complete {q : Bytes} {a : CutAnswer} (H : HeaderCut true q a) :
    ∃ r hd l, r ≠ [] ∧ BerHeader (q ++ r) hd ∧ hd.length = .definite l := by
  cases H with
  | empty => exact ⟨[0, 0], _, 0, by simp, eocHeader, rfl⟩
  | tag b ms h1 h2 h3 =>
    have hi : IdentOctets (b :: ms ++ [1]) _ _ _ := .high b ms 1 h1 h2 (by decide)
    have := identOctets_len 0 _ _ _ _ hi (by
      have := h3 rfl
      simp only [List.length_append, List.length_cons, List.length_nil]; omega) (by decide)
    rw [List.append_assoc] at this
    exact ⟨[1, 0], _, _, by simp, this, rfl⟩
  | noLength _ cls k num h1 h2 => exact ⟨[0], _, _, by simp, identOctets_len 0 _ _ _ _ h1 h2 (by decide), rfl⟩
  | length id cls k num b ds h1 h2 h3 h4 h5 h6 =>
    refine ⟨List.replicate (b.toNat - 128 - ds.length) 0,
      ⟨cls, k, num % 2 ^ 32, .definite (base256 (ds ++ List.replicate (b.toNat - 128 - ds.length) 0)), some id⟩,
      _, ?_, ?_, rfl⟩
    · intro h
      have := congrArg List.length h
      simp at this
      omega
    · refine ⟨⟨id, b :: (ds ++ List.replicate _ 0), num, by simp, h1, .long b _ h3 h4 ?_, rfl, h2, rfl⟩,
        fun n hn => ?_, by simp⟩
      · rw [List.length_append, List.length_replicate]; omega
      · simp only [Length.definite.injEq] at hn
        subst hn
        rw [base256_append, base256_replicate_zero, List.length_replicate]
        exact h6 rfl

theorem cut_complete {n : Nat} {q : Bytes} {a : CutAnswer} (H : Cut true n q a) :
    0 < n ∧ ∃ r, r ≠ [] ∧ (Element LooseEoc LooseEoc n (q ++ r) ∨ LooseEoc (q ++ r)) := by
  generalize hs : true = st at H
  induction H with
  | header n q a h1 h2 =>
    subst hs
    have hn := h1 rfl
    obtain ⟨n, rfl⟩ : ∃ m, n = m + 1 := ⟨n - 1, by omega⟩
    refine ⟨hn, ?_⟩
    obtain ⟨r, hd, l, k1, k2, k3⟩ := headerCut_complete h2
    refine ⟨r ++ List.replicate l 0, by simp [k1], ?_⟩
    by_cases he : LooseEoc (q ++ (r ++ List.replicate l 0))
    · exact .inr he
    · refine .inl ?_
      rw [← List.append_assoc] at he ⊢
      exact .definite n l _ _ hd k2 k3 (by simp) he
  | contents n l hb c hd h1 h2 h3 =>
    refine ⟨by omega, List.replicate (l - c.length) 0, ?_, ?_⟩
    · intro h
      have := congrArg List.length h
      simp at this
      omega
    · by_cases he : LooseEoc (hb ++ c ++ List.replicate (l - c.length) 0)
      · exact .inr he
      · refine .inl ?_
        rw [List.append_assoc] at he ⊢
        exact .definite n l _ _ hd h1 h2 (by simp; omega) he
  | inside n hb es q hd a h1 h2 h3 _ ih =>
    obtain ⟨hn, r, hr, hc⟩ := ih
    obtain ⟨n, rfl⟩ : ∃ m, n = m + 1 := ⟨n - 1, by omega⟩
    refine ⟨by omega, ?_⟩
    rcases hc with hc | hc
    · refine ⟨r ++ [0, 0], by simp, .inl ?_⟩
      have := Element.indefinite (T := LooseEoc) (X := LooseEoc) n hb (es ++ [q ++ r]) [0, 0] hd h1 h2
        (fun e he => by
          rcases List.mem_append.1 he with he | he
          · exact h3 e he
          · rw [List.mem_singleton.1 he]; exact hc) (looseEoc_of_isEoc _ rfl)
      simpa using this
    · refine ⟨r, hr, .inl ?_⟩
      have := Element.indefinite (T := LooseEoc) (X := LooseEoc) n hb es (q ++ r) hd h1 h2 h3 hc
      simpa using this

theorem cut_framed {n : Nat} {q : Bytes} {a : CutAnswer} (H : Cut true n q a) :
    ∃ r hd c, r ≠ [] ∧ Framed n (q ++ r) hd c := by
  obtain ⟨_, r, hr, hc⟩ := cut_complete H
  rcases hc with hc | ⟨hd, H, _, hl⟩
  · generalize he : q ++ r = e at hc
    cases hc with
    | definite m l hb c hd h1 h2 h3 _ => exact ⟨r, hd, c, hr, by rw [he]; exact .definite hb c hd h1 (by rw [h2, h3])⟩
    | indefinite m hb es t hd h1 h2 h3 h4 => exact ⟨r, hd, _, hr, by rw [he]; exact .indefinite m hb es t hd rfl h1 h2 h3 h4⟩
  · refine ⟨r, hd, [], hr, ?_⟩
    have := Framed.definite (n := n) (q ++ r) [] hd H hl
    rwa [List.append_nil] at this

end Verif
