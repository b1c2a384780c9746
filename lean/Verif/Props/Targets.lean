import Verif.Target
import Verif.Lemmas.Ber
import Verif.Lemmas.HeaderSpec
import Verif.Props.Total
/-!
# Property C135: targets with other machine words
-/
namespace Verif
open Outcome Spec

/-! ## The copy of the parsers with a parameter is the same as the original -/

theorem tSkipLoop_eq (skip : Header → Bytes → IRes BerError Bool) (fuel : Nat) (i : Bytes) :
    tSkipLoop headerFromBer skip fuel i = skipLoop skip fuel i := by
  induction fuel generalizing i with
  | zero => rfl
  | succ n ih => simp only [tSkipLoop, skipLoop, ih]

theorem tSkipContent_eq (d : Nat) (h : Header) (i : Bytes) :
    tSkipContent headerFromBer d h i = skipContent d h i := by
  induction d generalizing h i with
  | zero => rfl
  | succ n ih =>
    have : tSkipContent headerFromBer n = skipContent n := by funext h i; exact ih h i
    simp only [tSkipContent, skipContent, this, tSkipLoop_eq]
    cases h.length <;> rfl

theorem tGetObjectContent_eq (d : Nat) (h : Header) (i : Bytes) :
    tGetObjectContent headerFromBer d h i = getObjectContent d h i := by
  simp only [tGetObjectContent, getObjectContent, tSkipContent_eq]

theorem tAnyFromBer_eq (i : Bytes) : tAnyFromBer headerFromBer i = anyFromBer i := by
  simp only [tAnyFromBer, anyFromBer, tGetObjectContent_eq]

theorem tCollectItems_eq (conv : Any → Res BerObject) (fuel : Nat) (i : Bytes) :
    tCollectItems headerFromBer conv fuel i = collectItems conv fuel i := by
  induction fuel generalizing i with
  | zero => rfl
  | succ n ih => cases i <;> simp only [tCollectItems, collectItems, ih, tAnyFromBer_eq]

theorem tUniversalContent_eq (D : Deps) (conv : Any → Res BerObject) (a : Any) :
    tUniversalContent headerFromBer D conv a = universalContent D conv a := by
  simp only [tUniversalContent, tCollectItems_eq]
  split <;> rename_i h <;> simp only [universalContent, h]

theorem tObjectFromAny_eq (D : Deps) (d : Nat) (a : Any) :
    tObjectFromAny headerFromBer D d a = objectFromAny D d a := by
  induction d generalizing a with
  | zero => rfl
  | succ n ih =>
    have : tObjectFromAny headerFromBer D n = objectFromAny D n := by funext a; exact ih a
    simp only [tObjectFromAny, objectFromAny, this, tUniversalContent_eq]

theorem tReadElementContentAs_eq (D : Deps) (i : Bytes) (tag : Nat) (l : Length) (k : Bool) (d : Nat) :
    tReadElementContentAs headerFromBer D i tag l k d = berReadElementContentAs D i tag l k d := by
  simp only [tReadElementContentAs, berReadElementContentAs, tGetObjectContent_eq, tObjectFromAny_eq]
  cases l <;> rfl

theorem tDerReadElementContentAs_eq (D : Deps) (i : Bytes) (tag : Nat) (l : Length) (k : Bool) (d : Nat) :
    tDerReadElementContentAs headerFromBer D i tag l k d = derReadElementContentAs D i tag l k d := by
  simp only [tDerReadElementContentAs, derReadElementContentAs, tReadElementContentAs_eq]

theorem tDerBody_eq (D : Deps) (i : Bytes) (h : Header) (d : Nat) :
    tDerReadElementContentRecursive headerFromBer D i h d = derReadElementContentRecursive D i h d := by
  simp only [tDerReadElementContentRecursive, derReadElementContentRecursive, tDerReadElementContentAs_eq,
    tDerUnknown, derUnknown, tGetObjectContent_eq]
  split
  · rfl
  · split <;> simp_all

/-! ## 64 bits -/

theorem narrow64 {w : Nat} (hw : 64 ≤ w) {x : IRes BerError Header}
    (h : ∀ r, x = .ok r → ∃ hb, BerHeader hb r.2) : (x >>? narrow w) = x := by
  cases x with
  | ok r =>
    obtain ⟨hb, H⟩ := h r rfl
    simp only [ok_bind, narrow]
    cases hl : r.2.length with
    | definite n =>
      have h1 := H.length_lt n hl
      have h2 : 2 ^ 64 ≤ 2 ^ w := Nat.pow_le_pow_right (by omega) hw
      simp only; rw [if_neg (by omega)]
    | indefinite => rfl
  | err e => rfl
  | panic => rfl
  | diverge => rfl

theorem headerFromBerOn64 {w : Nat} (hw : 64 ≤ w) : headerFromBerOn w = headerFromBer := by
  funext i
  refine narrow64 hw ?_
  rintro ⟨rem, h⟩ e
  obtain ⟨hb, -, H⟩ := headerFromBer_iff.1 e
  exact ⟨hb, H⟩

theorem headerFromDerOn64 {w : Nat} (hw : 64 ≤ w) : headerFromDerOn w = headerFromDer := by
  funext i
  refine narrow64 hw ?_
  rintro ⟨rem, h⟩ e
  obtain ⟨hb, -, H⟩ := headerFromDer_iff.1 e
  exact ⟨hb, H.toBerHeader⟩

/-- C135: with 64 bits or more the parsers are those of the other properties. -/
theorem C135_word64 (w : Nat) (hw : 64 ≤ w) (D : Deps) (i : Bytes) :
    (∀ n, parseBerOn w D n i = parseBerRecursive D n i) ∧
    (∀ n, parseDerOn w D n i = parseDerRecursive D n i) ∧
    (∀ t, parseBerWithTagOn w D t i = parseBerWithTag D t i) ∧
    (∀ t, parseDerWithTagOn w D t i = parseDerWithTag D t i) := by
  refine ⟨fun n => ?_, fun n => ?_, fun t => ?_, fun t => ?_⟩
  · simp only [parseBerOn, headerFromBerOn64 hw, tParseBerRecursive, tAnyFromBer_eq, tObjectFromAny_eq,
      parseBerRecursive, parseBerAnyR]
  · simp only [parseDerOn, headerFromBerOn64 hw, headerFromDerOn64 hw, tParseDerRecursive, tDerBody_eq,
      parseDerRecursive]
    refine congrArg _ (funext fun r => ?_)
    cases r.2.length <;> rfl
  · simp only [parseBerWithTagOn, headerFromBerOn64 hw, tParseBerWithTag, tReadElementContentAs_eq,
      parseBerWithTag]
  · simp only [parseDerWithTagOn, headerFromBerOn64 hw, headerFromDerOn64 hw, tParseDerWithTag,
      tDerReadElementContentAs_eq, parseDerWithTag]

/-! ## Fewer bits -/

/-- The errors that a target with more bits has for an announced length of `2 ^ w` or more, in an input
of `L` octets: a request for so many octets that the input would not fit a `usize` of `w` bits, from
`parse_*` itself or inside a SEQUENCE or SET, or that the nesting is too deep, if the element is nested
too deeply in indefinite lengths. -/
def Spec.AsksTooMuch (w L : Nat) (e : NomErr BerError) : Prop :=
  e = .error .berMaxDepth ∨
  ∃ n, 2 ^ w ≤ n + L ∧ (e = .incomplete (.size n) ∨ e = .error (.incomplete (.size n)))

/-- The same answer, or the refusal of a length that does not fit. -/
def Spec.Narrower (w L : Nat) {α : Type} (x y : Outcome (NomErr BerError) α) : Prop :=
  y = x ∨ ∃ e, x = .err e ∧ AsksTooMuch w L e ∧ y = .err (.error .invalidLength)

/-- The same for results that are not those of nom. -/
def NarrowerRes (w L : Nat) {α : Type} (x y : Res α) : Prop :=
  y = x ∨ ∃ e, x = .err e ∧ (e = .berMaxDepth ∨ ∃ n, 2 ^ w ≤ n + L ∧ e = .incomplete (.size n)) ∧
    y = .err .invalidLength

section
variable {w L : Nat} {α β : Type}

theorem narrower_bind {x y : Outcome (NomErr BerError) α} {f g : α → Outcome (NomErr BerError) β}
    (h : Narrower w L x y) (hf : ∀ a, x = .ok a → Narrower w L (f a) (g a)) :
    Narrower w L (x >>? f) (y >>? g) := by
  rcases h with rfl | ⟨e, rfl, he, rfl⟩
  · cases y with
    | ok a => exact hf a rfl
    | err e => exact .inl rfl
    | panic => exact .inl rfl
    | diverge => exact .inl rfl
  · exact .inr ⟨e, rfl, he, rfl⟩

theorem narrowerRes_bind {x y : Res α} {f g : α → Res β}
    (h : NarrowerRes w L x y) (hf : ∀ a, x = .ok a → NarrowerRes w L (f a) (g a)) :
    NarrowerRes w L (x >>? f) (y >>? g) := by
  rcases h with rfl | ⟨e, rfl, he, rfl⟩
  · cases y with
    | ok a => exact hf a rfl
    | err e => exact .inl rfl
    | panic => exact .inl rfl
    | diverge => exact .inl rfl
  · exact .inr ⟨e, rfl, he, rfl⟩

theorem narrowerRes_map {x y : Res α} (f : α → β) (h : NarrowerRes w L x y) :
    NarrowerRes w L (x.map f) (y.map f) := by
  rcases h with rfl | ⟨e, rfl, he, rfl⟩
  · exact .inl rfl
  · exact .inr ⟨e, rfl, he, rfl⟩

theorem narrower_toRes {x y : Outcome (NomErr BerError) α} (h : Narrower w L x y) :
    NarrowerRes w L (x.mapErr errOfNom) (y.mapErr errOfNom) := by
  rcases h with rfl | ⟨e, rfl, he, rfl⟩
  · exact .inl rfl
  · refine .inr ⟨errOfNom e, rfl, ?_, rfl⟩
    rcases he with rfl | ⟨n, hn, rfl | rfl⟩
    · exact .inl rfl
    · exact .inr ⟨n, hn, rfl⟩
    · exact .inr ⟨n, hn, rfl⟩

theorem narrower_lift {x y : Res α} (h : NarrowerRes w L x y) : Narrower w L (liftRes x) (liftRes y) := by
  rcases h with rfl | ⟨e, rfl, he, rfl⟩
  · exact .inl rfl
  · refine .inr ⟨.error e, rfl, ?_, rfl⟩
    rcases he with rfl | ⟨n, hn, rfl⟩
    · exact .inl rfl
    · exact .inr ⟨n, hn, .inr rfl⟩

/-- A header read on both targets, and what comes after it. -/
theorem narrower_header {x : IRes BerError Header} {f g : Bytes × Header → Outcome (NomErr BerError) β}
    (hs : ∀ r, x = .ok r → Narrower w L (f r) (g r))
    (hl : ∀ r n, x = .ok r → r.2.length = .definite n → 2 ^ w ≤ n →
      f r = .err (.error .invalidLength) ∨ ∃ e, f r = .err e ∧ AsksTooMuch w L e) :
    Narrower w L (x >>? f) ((x >>? narrow w) >>? g) := by
  cases x with
  | ok r =>
    simp only [ok_bind, narrow]
    cases hr : r.2.length with
    | definite n =>
      simp only
      split
      · rename_i hn
        rcases hl r n rfl hr hn with h | ⟨e, h1, h2⟩
        · exact .inl h.symm
        · exact .inr ⟨e, h1, h2, rfl⟩
      · exact hs r rfl
    | indefinite => exact hs r rfl
  | err e => exact .inl rfl
  | panic => exact .inl rfl
  | diverge => exact .inl rfl

theorem asks_of_take {l len : Nat} (h1 : len ≤ L) (h2 : L < 2 ^ w) (h3 : 2 ^ w ≤ l) :
    AsksTooMuch w L (.incomplete (Needed.new (l - len))) := by
  refine .inr ⟨l - len, by omega, .inl ?_⟩
  rw [Needed.new, if_neg (by omega)]

theorem skipContent_asks (hL : L < 2 ^ w) (d : Nat) {h : Header} {n : Nat}
    (hn : h.length = .definite n) (h3 : 2 ^ w ≤ n) {i : Bytes} (hi : i.length ≤ L) :
    ∃ e, skipContent d h i = .err e ∧ AsksTooMuch w L e := by
  cases d with
  | zero => exact ⟨_, rfl, .inl rfl⟩
  | succ d =>
    simp only [skipContent, hn]
    rw [if_neg (by omega), takeStreaming, if_pos (by omega)]
    exact ⟨_, rfl, asks_of_take hi hL h3⟩

theorem getContent_asks (hL : L < 2 ^ w) (d : Nat) {h : Header} {n : Nat}
    (hn : h.length = .definite n) (h3 : 2 ^ w ≤ n) {i : Bytes} (hi : i.length ≤ L) :
    ∃ e, getObjectContent d h i = .err e ∧ AsksTooMuch w L e := by
  obtain ⟨e, h1, h2⟩ := skipContent_asks hL d hn h3 hi
  exact ⟨e, by simp [getObjectContent, h1], h2⟩

theorem skipLoop_narrower (hL : L < 2 ^ w) {d : Nat}
    (hskip : ∀ h (i : Bytes), i.length ≤ L →
      Narrower w L (skipContent d h i) (tSkipContent (headerFromBerOn w) d h i)) :
    ∀ (fuel : Nat) (i : Bytes), i.length ≤ L →
      Narrower w L (skipLoop (skipContent d) fuel i)
        (tSkipLoop (headerFromBerOn w) (tSkipContent (headerFromBerOn w) d) fuel i)
  | 0, _, _ => .inl rfl
  | fuel + 1, i, hi => by
    refine narrower_header ?_ ?_
    · rintro ⟨i2, h2⟩ e
      have := headerFromBer_pos e
      refine narrower_bind (hskip _ _ (by simp only; omega)) ?_
      rintro ⟨i3, b⟩ e3
      have : i3.length ≤ i2.length := (local_skipContent d h2).length_le e3
      simp only
      split
      · exact .inl rfl
      · exact skipLoop_narrower hL hskip fuel i3 (by omega)
    · rintro ⟨i2, h2⟩ n e hn h3
      have := headerFromBer_pos e
      obtain ⟨e, h4, h5⟩ := skipContent_asks hL d hn h3 (i := i2) (by omega)
      exact .inr ⟨e, by simp only [h4, err_bind], h5⟩

theorem skipContent_narrower (hL : L < 2 ^ w) : ∀ (d : Nat) (h : Header) (i : Bytes), i.length ≤ L →
    Narrower w L (skipContent d h i) (tSkipContent (headerFromBerOn w) d h i)
  | 0, _, _, _ => .inl rfl
  | d + 1, h, i, hi => by
    simp only [skipContent, tSkipContent]
    cases h.length with
    | definite l => exact .inl rfl
    | indefinite =>
      simp only
      split
      · exact skipLoop_narrower hL (skipContent_narrower hL d) _ i hi
      · exact .inl rfl

theorem getContent_narrower (hL : L < 2 ^ w) (d : Nat) (h : Header) (i : Bytes) (hi : i.length ≤ L) :
    Narrower w L (getObjectContent d h i) (tGetObjectContent (headerFromBerOn w) d h i) :=
  narrower_bind (skipContent_narrower hL d h i hi) fun _ _ => .inl rfl

theorem any_narrower (hL : L < 2 ^ w) (i : Bytes) (hi : i.length ≤ L) :
    Narrower w L (anyFromBer i) (tAnyFromBer (headerFromBerOn w) i) := by
  refine narrower_header ?_ ?_
  · rintro ⟨i2, h2⟩ e
    have := headerFromBer_pos e
    exact narrower_bind (getContent_narrower hL _ _ _ (by simp only; omega)) fun _ _ => .inl rfl
  · rintro ⟨i2, h2⟩ n e hn h3
    have := headerFromBer_pos e
    obtain ⟨e, h4, h5⟩ := getContent_asks hL maxRecursion hn h3 (i := i2) (by omega)
    exact .inr ⟨e, by simp only [h4, err_bind], h5⟩

theorem items_narrower (hL : L < 2 ^ w) {conv conv' : Any → Res BerObject}
    (hconv : ∀ a, a.data.length ≤ L → NarrowerRes w L (conv a) (conv' a)) :
    ∀ (fuel : Nat) (i : Bytes), i.length ≤ L →
      NarrowerRes w L (collectItems conv fuel i) (tCollectItems (headerFromBerOn w) conv' fuel i)
  | 0, _, _ => .inl rfl
  | fuel + 1, [], _ => .inl rfl
  | fuel + 1, b :: i, hi => by
    simp only [collectItems, tCollectItems]
    refine narrowerRes_bind (narrower_toRes (any_narrower hL _ hi)) ?_
    rintro ⟨rem, a⟩ e
    have e' := mapErr_eq_ok.1 e
    have hp := anyFromBer_pos e'
    have hd : a.data.length ≤ L := by
      obtain ⟨i1, h1, h2⟩ := anyFromBer_ok e'
      have := headerFromBer_pos h1
      obtain ⟨pre, b', rfl, -, hc⟩ := getObjectContent_ok h2
      have : a.data.length ≤ pre.length := by
        rw [hc, contentOf]; split <;> simp
      simp only [List.length_append] at *
      omega
    refine narrowerRes_bind (hconv a hd) fun o _ => ?_
    exact narrowerRes_bind (items_narrower hL hconv fuel rem (by omega)) fun _ _ => .inl rfl

theorem content_narrower (hL : L < 2 ^ w) {D : Deps} {conv conv' : Any → Res BerObject}
    (hconv : ∀ a, a.data.length ≤ L → NarrowerRes w L (conv a) (conv' a)) (a : Any)
    (ha : a.data.length ≤ L) :
    NarrowerRes w L (universalContent D conv a) (tUniversalContent (headerFromBerOn w) D conv' a) := by
  have hit := items_narrower hL hconv (a.data.length + 1) a.data ha
  simp only [tUniversalContent]
  split
  · rename_i h
    simp only [universalContent, h]
    refine narrowerRes_bind (.inl rfl) fun _ _ => narrowerRes_map _ hit
  · rename_i h
    simp only [universalContent, h]
    refine narrowerRes_bind (.inl rfl) fun _ _ => narrowerRes_map _ hit
  · rename_i h1 h2
    left
    unfold universalContent
    cases h : uKind a.header.tag <;> simp_all

theorem object_narrower (hL : L < 2 ^ w) {D : Deps} : ∀ (d : Nat) (a : Any), a.data.length ≤ L →
    NarrowerRes w L (objectFromAny D d a) (tObjectFromAny (headerFromBerOn w) D d a)
  | 0, _, _ => .inl rfl
  | d + 1, a, ha => by
    simp only [objectFromAny, tObjectFromAny]
    split
    · exact .inl rfl
    · exact narrowerRes_map _ (content_narrower hL (object_narrower hL d) a ha)

theorem any_data_le {i rem : Bytes} {a : Any} (h : anyFromBer i = .ok (rem, a)) :
    a.data.length ≤ i.length := by
  obtain ⟨i1, h1, h2⟩ := anyFromBer_ok h
  have := headerFromBer_pos h1
  obtain ⟨pre, b', rfl, -, hc⟩ := getObjectContent_ok h2
  have : a.data.length ≤ pre.length := by
    rw [hc, contentOf]; split <;> simp
  simp only [List.length_append] at *
  omega

theorem parseBer_narrower (hL : L < 2 ^ w) (D : Deps) (d : Nat) (i : Bytes) (hi : i.length ≤ L) :
    Narrower w L (parseBerRecursive D d i) (parseBerOn w D d i) := by
  simp only [parseBerRecursive, parseBerAnyR, parseBerOn, tParseBerRecursive]
  split
  · exact .inl rfl
  · refine narrower_bind (any_narrower hL i hi) ?_
    rintro ⟨rem, a⟩ e
    have := any_data_le e
    exact narrower_bind (narrower_lift (object_narrower hL d a (by omega))) fun _ _ => .inl rfl

theorem readAs_narrower (hL : L < 2 ^ w) (D : Deps) (i : Bytes) (tag : Nat) (l : Length) (k : Bool)
    (d : Nat) (hi : i.length ≤ L) :
    Narrower w L (berReadElementContentAs D i tag l k d)
      (tReadElementContentAs (headerFromBerOn w) D i tag l k d) := by
  have go : Narrower w L
      (getObjectContent d (Header.new .universal k tag l) i >>? fun r =>
        liftRes (objectFromAny D d ⟨Header.new .universal k tag l, r.2⟩) >>? fun o =>
          .ok (r.1, o.content))
      (tGetObjectContent (headerFromBerOn w) d (Header.new .universal k tag l) i >>? fun r =>
        liftRes (tObjectFromAny (headerFromBerOn w) D d ⟨Header.new .universal k tag l, r.2⟩) >>? fun o =>
          .ok (r.1, o.content)) := by
    refine narrower_bind (getContent_narrower hL _ _ _ hi) ?_
    rintro ⟨rem, c⟩ e
    obtain ⟨pre, b', rfl, -, hc⟩ := getObjectContent_ok e
    have : c.length ≤ pre.length := by
      rw [hc, contentOf]; split <;> simp
    simp only [List.length_append] at hi
    exact narrower_bind (narrower_lift (object_narrower hL d _ (by simp only; omega))) fun _ _ => .inl rfl
  simp only [berReadElementContentAs, tReadElementContentAs]
  cases l with
  | definite l =>
    simp only
    split
    · exact .inl rfl
    · split
      · exact .inl rfl
      · exact go
  | indefinite => exact go

theorem derReadAs_narrower (hL : L < 2 ^ w) (D : Deps) (i : Bytes) (tag : Nat) (l : Length) (k : Bool)
    (d : Nat) (hi : i.length ≤ L) :
    Narrower w L (derReadElementContentAs D i tag l k d)
      (tDerReadElementContentAs (headerFromBerOn w) D i tag l k d) := by
  refine narrower_bind (.inl rfl) fun n _ => ?_
  split
  · exact .inl rfl
  · split
    · exact .inl rfl
    · exact narrower_bind (.inl rfl) fun _ _ => readAs_narrower hL D i tag l k d hi

theorem derUnknown_narrower (hL : L < 2 ^ w) (i : Bytes) (h : Header) (d : Nat) (hi : i.length ≤ L) :
    Narrower w L (derUnknown i h d) (tDerUnknown (headerFromBerOn w) i h d) :=
  narrower_bind (getContent_narrower hL d h i hi) fun _ _ => .inl rfl

theorem derBody_narrower (hL : L < 2 ^ w) (D : Deps) (i : Bytes) (h : Header) (d : Nat)
    (hi : i.length ≤ L) :
    Narrower w L (derReadElementContentRecursive D i h d)
      (tDerReadElementContentRecursive (headerFromBerOn w) D i h d) := by
  have hu := derUnknown_narrower hL i h d hi
  have ha := derReadAs_narrower hL D i h.tag h.length h.constructed d hi
  simp only [derReadElementContentRecursive, tDerReadElementContentRecursive]
  split
  · exact hu
  · rcases ha with ha | ⟨e, h1, h2, h3⟩
    · rw [ha]
      generalize derReadElementContentAs D i h.tag h.length h.constructed d = x
      match x with
      | .ok _ => exact .inl rfl
      | .err e =>
        by_cases he : ∃ t, e = .error (.unknownTag t)
        · obtain ⟨t, rfl⟩ := he
          exact hu
        · left
          split <;> simp_all
      | .panic => exact .inl rfl
      | .diverge => exact .inl rfl
    · rw [h1, h3]
      refine .inr ⟨e, ?_, h2, rfl⟩
      rcases h2 with rfl | ⟨n, -, rfl | rfl⟩ <;> rfl

theorem parseDer_narrower (hw : 32 ≤ w) (hL : L < 2 ^ w) (D : Deps) (d : Nat) (i : Bytes)
    (hi : i.length ≤ L) : Narrower w L (parseDerRecursive D d i) (parseDerOn w D d i) := by
  refine narrower_header ?_ ?_
  · rintro ⟨i2, h2⟩ e
    have := headerFromDer_pos e
    have hb := derBody_narrower hL D i2 h2 d (by omega)
    simp only
    cases h2.length with
    | definite l =>
      simp only
      split
      · exact .inl rfl
      · exact hb
    | indefinite => exact hb
  · rintro ⟨i2, h2⟩ n e hn h3
    have : 2 ^ 32 ≤ 2 ^ w := Nat.pow_le_pow_right (by omega) hw
    left
    simp only at hn ⊢
    rw [hn]
    simp only
    rw [if_pos (by simp only [maxObjectSize]; omega)]

end

/-- C135: on every input that fits into the memory of a target with `w ≥ 32` bits, `parse_ber` and
`parse_der` answer as on a target with 64 bits, except that an announced length of `2 ^ w` or more is
refused with `InvalidLength` when the header has been read, where 64 bits lead to a request for more
octets than fit, or to the error for deep nesting. -/
theorem C135_answers (w : Nat) (hw : 32 ≤ w) (D : Deps) (n : Nat) (i : Bytes) (hi : i.length < 2 ^ w) :
    Narrower w i.length (parseBerRecursive D n i) (parseBerOn w D n i) ∧
    Narrower w i.length (parseDerRecursive D n i) (parseDerOn w D n i) :=
  ⟨parseBer_narrower hi D n i (Nat.le_refl _), parseDer_narrower hw hi D n i (Nat.le_refl _)⟩

/-- C135: the parsers for one tag answer in the same way, except that the length is refused before the
tag is looked at. -/
theorem C135_with_tag (w : Nat) (hw : 32 ≤ w) (D : Deps) (t : Nat) (i : Bytes) (hi : i.length < 2 ^ w) :
    (Narrower w i.length (parseBerWithTag D t i) (parseBerWithTagOn w D t i) ∨
      (∃ a, parseBerWithTag D t i = .err (.error (.unexpectedTag (some t) a))) ∧
        parseBerWithTagOn w D t i = .err (.error .invalidLength)) ∧
    (Narrower w i.length (parseDerWithTag D t i) (parseDerWithTagOn w D t i) ∨
      (∃ a, parseDerWithTag D t i = .err (.error (.unexpectedTag (some t) a))) ∧
        parseDerWithTagOn w D t i = .err (.error .invalidLength)) := by
  have h32 : 2 ^ 32 ≤ 2 ^ w := Nat.pow_le_pow_right (by omega) hw
  constructor
  · simp only [parseBerWithTag, parseBerWithTagOn, tParseBerWithTag, headerFromBerOn]
    cases hx : headerFromBer i with
    | ok r =>
      obtain ⟨i2, h2⟩ := r
      have hp := headerFromBer_pos hx
      by_cases ht : h2.tag = t
      · left
        rw [← hx]
        refine narrower_header ?_ ?_
        · intro r e
          have hp := headerFromBer_pos (rem := r.1) (h := r.2) e
          refine narrower_bind (.inl rfl) fun _ _ => ?_
          exact narrower_bind (readAs_narrower hi _ _ _ _ _ _ (by omega)) fun _ _ => .inl rfl
        · rintro r n e hn h3
          rw [hx] at e
          cases e
          left
          simp only at hn
          simp only [Header.assertTag, ht, if_true, liftRes, berReadElementContentAs, hn]
          rw [if_pos (by simp only [maxObjectSize]; omega)]
          rfl
      · by_cases hs : ∃ n, h2.length = .definite n ∧ 2 ^ w ≤ n
        · obtain ⟨n, hn, h3⟩ := hs
          right
          refine ⟨⟨h2.tag, ?_⟩, ?_⟩
          · simp [Header.assertTag, ht, liftRes]
          · simp [narrow, hn, h3]
        · left; left
          simp only [ok_bind]
          have : narrow w (i2, h2) = .ok (i2, h2) := by
            simp only [narrow]
            split
            · rename_i n hn
              rw [if_neg (fun h => hs ⟨n, hn, h⟩)]
            · rfl
          rw [this]
          simp [Header.assertTag, ht, liftRes]
    | err e => exact .inl (.inl rfl)
    | panic => exact .inl (.inl rfl)
    | diverge => exact .inl (.inl rfl)
  · simp only [parseDerWithTag, parseDerWithTagOn, tParseDerWithTag, headerFromDerOn]
    cases hx : headerFromDer i with
    | ok r =>
      obtain ⟨i2, h2⟩ := r
      have hp := headerFromDer_pos hx
      by_cases ht : h2.tag = t
      · left
        rw [← hx]
        refine narrower_header ?_ ?_
        · intro r e
          have hp := headerFromDer_pos (rem := r.1) (h := r.2) e
          refine narrower_bind (.inl rfl) fun _ _ => ?_
          exact narrower_bind (derReadAs_narrower hi _ _ _ _ _ _ (by omega)) fun _ _ => .inl rfl
        · rintro r n e hn h3
          rw [hx] at e
          cases e
          right
          simp only at hn
          refine ⟨.incomplete (.size n), ?_, .inr ⟨n, by omega, .inl rfl⟩⟩
          have h4 : i2.length < n := by omega
          have h5 : n ≠ 0 := by omega
          simp [Header.assertTag, ht, liftRes, derReadElementContentAs, hn, Length.definite?, h4,
            Needed.new, h5]
      · by_cases hs : ∃ n, h2.length = .definite n ∧ 2 ^ w ≤ n
        · obtain ⟨n, hn, h3⟩ := hs
          right
          refine ⟨⟨h2.tag, ?_⟩, ?_⟩
          · simp [Header.assertTag, ht, liftRes]
          · simp [narrow, hn, h3]
        · left; left
          simp only [ok_bind]
          have : narrow w (i2, h2) = .ok (i2, h2) := by
            simp only [narrow]
            split
            · rename_i n hn
              rw [if_neg (fun h => hs ⟨n, hn, h⟩)]
            · rfl
          rw [this]
          simp [Header.assertTag, ht, liftRes]
    | err e => exact .inl (.inl rfl)
    | panic => exact .inl (.inl rfl)
    | diverge => exact .inl (.inl rfl)

theorem narrower_ok {w L : Nat} {α : Type} {x y : Outcome (NomErr BerError) α} (h : Narrower w L x y)
    (a : α) : x = .ok a ↔ y = .ok a := by
  rcases h with rfl | ⟨e, rfl, -, rfl⟩ <;> simp

/-- C135: the same inputs are accepted, with the same result. -/
theorem C135_accepts (w : Nat) (hw : 32 ≤ w) (D : Deps) (n : Nat) (i : Bytes) (hi : i.length < 2 ^ w)
    (rem : Bytes) (o : BerObject) :
    (parseBerOn w D n i = .ok (rem, o) ↔ parseBerRecursive D n i = .ok (rem, o)) ∧
    (parseDerOn w D n i = .ok (rem, o) ↔ parseDerRecursive D n i = .ok (rem, o)) :=
  ⟨(narrower_ok (C135_answers w hw D n i hi).1 _).symm, (narrower_ok (C135_answers w hw D n i hi).2 _).symm⟩

/-- C135: and the calls return. -/
theorem C135_returns (w : Nat) (hw : 32 ≤ w) (D : Deps) (n : Nat) (i : Bytes) (hi : i.length < 2 ^ w) :
    (parseBerOn w D n i).Returns ∧ (parseDerOn w D n i).Returns := by
  obtain ⟨h1, h2⟩ := C135_answers w hw D n i hi
  constructor
  · rcases h1 with h | ⟨e, -, -, h⟩ <;> rw [h]
    · exact C01_parse_ber_recursive_total D n i
    · trivial
  · rcases h2 with h | ⟨e, -, -, h⟩ <;> rw [h]
    · exact C02_parse_der_recursive_total D n i
    · trivial

/-- C135: so do the calls of the parsers for one tag. -/
theorem C135_with_tag_returns (w : Nat) (hw : 32 ≤ w) (D : Deps) (t : Nat) (i : Bytes)
    (hi : i.length < 2 ^ w) :
    (parseBerWithTagOn w D t i).Returns ∧ (parseDerWithTagOn w D t i).Returns := by
  obtain ⟨h1, h2⟩ := C135_with_tag w hw D t i hi
  constructor
  · rcases h1 with (h | ⟨e, -, -, h⟩) | ⟨-, h⟩ <;> rw [h]
    · exact (C03_typed_parsers_total D t i).1
    · trivial
    · trivial
  · rcases h2 with (h | ⟨e, -, -, h⟩) | ⟨-, h⟩ <;> rw [h]
    · exact (C03_typed_parsers_total D t i).2
    · trivial
    · trivial

/-- C135: the parsers for one tag accept the same inputs as well. -/
theorem C135_with_tag_accepts (w : Nat) (hw : 32 ≤ w) (D : Deps) (t : Nat) (i : Bytes)
    (hi : i.length < 2 ^ w) (rem : Bytes) (o : BerObject) :
    (parseBerWithTagOn w D t i = .ok (rem, o) ↔ parseBerWithTag D t i = .ok (rem, o)) ∧
    (parseDerWithTagOn w D t i = .ok (rem, o) ↔ parseDerWithTag D t i = .ok (rem, o)) := by
  obtain ⟨h1, h2⟩ := C135_with_tag w hw D t i hi
  constructor
  · rcases h1 with h | ⟨⟨a, h⟩, h'⟩
    · exact (narrower_ok h _).symm
    · simp [h, h']
  · rcases h2 with h | ⟨⟨a, h⟩, h'⟩
    · exact (narrower_ok h _).symm
    · simp [h, h']

/-! ## Where the answers differ -/

theorem any_short {i i1 : Bytes} {h : Header} {n k : Nat} (e : headerFromBer i = .ok (i1, h))
    (hn : h.length = .definite n) (hk : n = i1.length + (k + 1)) :
    anyFromBer i = .err (.incomplete (.size (k + 1))) := by
  have h1 : i1.length < n := by omega
  have h2 : ¬ (n = 0 ∧ h.tag = Tag.endOfContent) := by omega
  have h3 : n - i1.length = k + 1 := by omega
  have h4 : skipContent maxRecursion h i1 = .err (.incomplete (.size (k + 1))) := by
    show skipContent (49 + 1) h i1 = _
    simp only [skipContent, hn, if_neg h2, takeStreaming, if_pos h1, h3, err_bind, Needed.new]
    rw [if_neg (by omega)]
  simp only [anyFromBer, e, ok_bind, getObjectContent, h4, err_bind]

theorem big_any : anyFromBer [0x02, 0x85, 1, 0, 0, 0, 0, 5] = .err (.incomplete (.size 4294967295)) := by
  have h : headerFromBer [0x02, 0x85, 1, 0, 0, 0, 0, 5] =
      .ok ([5], ⟨.universal, false, 2, .definite 4294967296, some [0x02]⟩) := by rfl
  exact any_short (k := 4294967294) h rfl rfl

theorem big_header : headerFromBerOn 32 [0x02, 0x85, 1, 0, 0, 0, 0, 5] =
    .err (.error .invalidLength) := by
  have h : headerFromBer [0x02, 0x85, 1, 0, 0, 0, 0, 5] =
      .ok ([5], ⟨.universal, false, 2, .definite 4294967296, some [0x02]⟩) := by rfl
  simp [headerFromBerOn, h, narrow]

theorem big_ber (D : Deps) : parseBerRecursive D 50 [0x02, 0x85, 1, 0, 0, 0, 0, 5] =
    .err (.incomplete (.size 4294967295)) := by
  simp [parseBerRecursive, parseBerAnyR, big_any]

theorem big_ber_on (D : Deps) : parseBerOn 32 D 50 [0x02, 0x85, 1, 0, 0, 0, 0, 5] =
    .err (.error .invalidLength) := by
  simp [parseBerOn, tParseBerRecursive, tAnyFromBer, big_header]

/-- C135: the hypotheses are met by a 32-bit target and by an input that announces `2 ^ 32` octets, and
there the answers differ: 64 bits ask for the rest, 32 bits refuse. -/
theorem C135_differ (D : Deps) :
    parseBerRecursive D 50 [0x02, 0x85, 1, 0, 0, 0, 0, 5] = .err (.incomplete (.size 4294967295)) ∧
    parseBerOn 32 D 50 [0x02, 0x85, 1, 0, 0, 0, 0, 5] = .err (.error .invalidLength) :=
  ⟨big_ber D, big_ber_on D⟩

/-- C135: inside a SEQUENCE the error for the incomplete part is the other way of asking. -/
theorem C135_differ_inside (D : Deps) :
    parseBerRecursive D 50 [0x30, 8, 0x02, 0x85, 1, 0, 0, 0, 0, 5] =
      .err (.error (.incomplete (.size 4294967295))) ∧
    parseBerOn 32 D 50 [0x30, 8, 0x02, 0x85, 1, 0, 0, 0, 0, 5] = .err (.error .invalidLength) :=
  by
  constructor
  · have h : anyFromBer [0x30, 8, 0x02, 0x85, 1, 0, 0, 0, 0, 5] =
        .ok ([], ⟨⟨.universal, true, 16, .definite 8, some [0x30]⟩, [0x02, 0x85, 1, 0, 0, 0, 0, 5]⟩) := by
      rfl
    have hc : ∀ conv, collectItems conv 9 [0x02, 0x85, 1, 0, 0, 0, 0, 5] =
        .err (.incomplete (.size 4294967295)) := fun conv => by
      show collectItems conv (8 + 1) _ = _
      simp only [collectItems, big_any]
      rfl
    have ho : ∀ conv, universalContent D conv
        ⟨⟨.universal, true, 16, .definite 8, some [0x30]⟩, [0x02, 0x85, 1, 0, 0, 0, 0, 5]⟩ =
        .err (.incomplete (.size 4294967295)) := fun conv => by
      show Outcome.map Content.sequence (collectItems conv 9 [0x02, 0x85, 1, 0, 0, 0, 0, 5]) = _
      rw [hc]; rfl
    have hob : objectFromAny D (49 + 1)
        ⟨⟨.universal, true, 16, .definite 8, some [0x30]⟩, [0x02, 0x85, 1, 0, 0, 0, 0, 5]⟩ =
        .err (.incomplete (.size 4294967295)) := by
      simp only [objectFromAny, ho]; rfl
    simp only [parseBerRecursive, parseBerAnyR, h, ok_bind]
    rw [if_neg (by omega), hob]; rfl
  · have h : tAnyFromBer (headerFromBerOn 32) [0x30, 8, 0x02, 0x85, 1, 0, 0, 0, 0, 5] =
        .ok ([], ⟨⟨.universal, true, 16, .definite 8, some [0x30]⟩, [0x02, 0x85, 1, 0, 0, 0, 0, 5]⟩) := by
      rfl
    have hc : ∀ conv, tCollectItems (headerFromBerOn 32) conv 9 [0x02, 0x85, 1, 0, 0, 0, 0, 5] =
        .err .invalidLength := fun conv => by
      show tCollectItems _ conv (8 + 1) _ = _
      simp only [tCollectItems, tAnyFromBer, big_header]
      rfl
    have ho : ∀ conv, tUniversalContent (headerFromBerOn 32) D conv
        ⟨⟨.universal, true, 16, .definite 8, some [0x30]⟩, [0x02, 0x85, 1, 0, 0, 0, 0, 5]⟩ =
        .err .invalidLength := fun conv => by
      show Outcome.map Content.sequence
        (tCollectItems (headerFromBerOn 32) conv 9 [0x02, 0x85, 1, 0, 0, 0, 0, 5]) = _
      rw [hc]; rfl
    have hob : tObjectFromAny (headerFromBerOn 32) D (49 + 1)
        ⟨⟨.universal, true, 16, .definite 8, some [0x30]⟩, [0x02, 0x85, 1, 0, 0, 0, 0, 5]⟩ =
        .err .invalidLength := by
      simp only [tObjectFromAny, ho]; rfl
    simp only [parseBerOn, tParseBerRecursive, h, ok_bind]
    rw [if_neg (by omega), hob]; rfl

/-- C135: with another tag, the length is refused before the tag is. -/
theorem C135_differ_tag (D : Deps) :
    parseBerWithTag D 4 [0x02, 0x85, 1, 0, 0, 0, 0, 5] = .err (.error (.unexpectedTag (some 4) 2)) ∧
    parseBerWithTagOn 32 D 4 [0x02, 0x85, 1, 0, 0, 0, 0, 5] = .err (.error .invalidLength) :=
  ⟨rfl, rfl⟩

/-- C135: below 50 indefinite lengths, the nesting is refused with 64 bits, and the length with 32. -/
theorem C135_differ_depth (D : Deps) :
    parseBerRecursive D 50 ((List.replicate 50 [0x30, 0x80]).flatten ++ [0x02, 0x85, 1, 0, 0, 0, 0, 5]) =
      .err (.error .berMaxDepth) ∧
    parseBerOn 32 D 50 ((List.replicate 50 [0x30, 0x80]).flatten ++ [0x02, 0x85, 1, 0, 0, 0, 0, 5]) =
      .err (.error .invalidLength) :=
  ⟨by rfl, by rfl⟩

/-- C135: what is accepted is the same for the parsers above, but not for a program made of them: under
nom's `opt` an error that is a request for more input stays one, and a refusal means absence.  The same
octets are refused with 64 bits, and accepted with 32 bits. -/
theorem C135_optional_differs (D : Deps) :
    optionally (parseBerRecursive D 50) [0x02, 0x85, 1, 0, 0, 0, 0, 5] =
      .err (.incomplete (.size 4294967295)) ∧
    optionally (parseBerOn 32 D 50) [0x02, 0x85, 1, 0, 0, 0, 0, 5] =
      .ok ([0x02, 0x85, 1, 0, 0, 0, 0, 5], none) :=
  ⟨by simp [optionally, big_ber], by simp [optionally, big_ber_on]⟩

/-- C135: nothing differs for an object whose lengths fit. -/
example (D : Deps) : parseBerOn 32 D 50 [0x30, 3, 0x02, 1, 5] =
    .ok ([], .mk ⟨.universal, true, Tag.sequence, .definite 3, some [0x30]⟩ (.sequence
      [.mk ⟨.universal, false, Tag.integer, .definite 1, some [0x02]⟩ (.integer [5])])) := rfl

end Verif
