import Verif.Lemmas.Local
/-!
# Content skipping and element framing: locality, progress, totality
-/
namespace Verif
open Outcome

variable {E α β : Type}

theorem Reads.nil_of {p : Bytes → IRes E α} {pre : Bytes} {a : α} (h : Reads p pre a) :
    p pre = .ok ([], a) := by simpa using h []

/-! ## `ber_skip_object_content` -/

theorem skipLoop_ok {skip : Header → Bytes → IRes BerError Bool} (hs : ∀ h, Local (skip h))
    {fuel : Nat} {i rem : Bytes} {b : Bool} (h : skipLoop skip fuel i = .ok (rem, b)) :
    ∃ pre, i = pre ++ rem ∧ 2 ≤ pre.length ∧ b = false ∧
      ∀ x fuel', pre.length ≤ fuel' → skipLoop skip fuel' (pre ++ x) = .ok (x, false) := by
  induction fuel generalizing i with
  | zero => simp [skipLoop] at h
  | succ fuel ih =>
    unfold skipLoop at h
    obtain ⟨⟨i1, hd⟩, h1, h2⟩ := bind_eq_ok.1 h
    obtain ⟨⟨i2, eoc⟩, h3, h4⟩ := bind_eq_ok.1 h2
    have hpos := headerFromBer_pos h1
    obtain ⟨p1, rfl, r1⟩ := local_headerFromBer _ _ _ h1
    obtain ⟨p2, rfl, r2⟩ := hs _ _ _ _ h3
    simp only [List.length_append] at hpos
    simp only at h4
    split at h4
    · rename_i he
      simp at h4
      obtain ⟨rfl, rfl⟩ := h4
      refine ⟨p1 ++ p2, by simp, by simp only [List.length_append]; omega, rfl, ?_⟩
      intro x fuel' hf
      cases fuel' with
      | zero => simp only [List.length_append] at hf; omega
      | succ fuel' =>
        simp [skipLoop, List.append_assoc, r1 (p2 ++ x), r2 x, he]
    · rename_i he
      obtain ⟨p3, rfl, hp3, rfl, r3⟩ := ih h4
      refine ⟨p1 ++ p2 ++ p3, by simp, by simp only [List.length_append]; omega, rfl, ?_⟩
      intro x fuel' hf
      cases fuel' with
      | zero => simp only [List.length_append] at hf; omega
      | succ fuel' =>
        simp only [Bool.not_eq_true] at he
        simp only [List.length_append] at hf
        simp only [skipLoop, List.append_assoc, r1 (p2 ++ (p3 ++ x)), r2 (p3 ++ x), ok_bind, he]
        exact r3 x fuel' (by omega)

theorem local_skipContent (d : Nat) (hdr : Header) : Local (skipContent d hdr) := by
  induction d generalizing hdr with
  | zero => intro i rem b h; simp [skipContent] at h
  | succ d ih =>
    intro i rem b h
    simp only [skipContent] at h
    split at h
    · rename_i l hl
      split at h
      · rename_i hz
        simp at h
        exact ⟨[], by simp [h.1], fun x => by simp [skipContent, hl, hz, h.2]⟩
      · rename_i hz
        obtain ⟨⟨i1, c⟩, h1, h2⟩ := bind_eq_ok.1 h
        obtain ⟨rfl, rfl⟩ := takeStreaming_ok h1
        simp at h2
        refine ⟨c, by simp [h2.1], fun x => ?_⟩
        simp only [skipContent, hl, if_neg hz, takeStreaming_append, h2.2, ok_bind]
    · rename_i hl
      split at h
      · rename_i hc
        obtain ⟨pre, rfl, hp, rfl, r⟩ := skipLoop_ok ih h
        refine ⟨pre, rfl, fun x => ?_⟩
        simp only [skipContent, hl, hc, if_true]
        exact r x _ (by simp; omega)
      · simp at h

theorem skipContent_indef_len {d : Nat} {hdr : Header} {pre rem : Bytes} {b : Bool}
    (hl : hdr.length = .indefinite) (h : skipContent d hdr (pre ++ rem) = .ok (rem, b)) :
    2 ≤ pre.length := by
  cases d with
  | zero => simp [skipContent] at h
  | succ d =>
    simp only [skipContent, hl] at h
    split at h
    · obtain ⟨p, e, hp, _, _⟩ := skipLoop_ok (local_skipContent d) h
      have : pre = p := List.append_cancel_right e
      rw [this]; exact hp
    · simp at h

theorem skipContent_def_len {d : Nat} {hdr : Header} {pre rem : Bytes} {b : Bool} {l : Nat}
    (hl : hdr.length = .definite l) (h : skipContent d hdr (pre ++ rem) = .ok (rem, b)) :
    pre.length = l := by
  cases d with
  | zero => simp [skipContent] at h
  | succ d =>
    simp only [skipContent, hl] at h
    split at h
    · rename_i hz
      simp at h
      simp [h.1, hz.1]
    · obtain ⟨⟨i1, c⟩, h1, h2⟩ := bind_eq_ok.1 h
      obtain ⟨e, rfl⟩ := takeStreaming_ok h1
      simp at h2
      rw [h2.1] at e
      rw [List.append_cancel_right e]

/-- Definite lengths do not use the recursion budget. -/
theorem skipContent_definite {d l : Nat} {hdr : Header} (hl : hdr.length = .definite l)
    (c rem : Bytes) (hc : c.length = l) :
    ∃ b, skipContent (d + 1) hdr (c ++ rem) = .ok (rem, b) := by
  simp only [skipContent, hl]
  split
  · rename_i hz
    have : c = [] := List.length_eq_zero_iff.1 (by omega)
    simp [this]
  · subst hc; simp [takeStreaming_append]

theorem returns_skipLoop {skip : Header → Bytes → IRes BerError Bool} (hs : ∀ h, Local (skip h))
    (hr : ∀ h i, (skip h i).Returns) {fuel : Nat} {i : Bytes} (hf : i.length < fuel) :
    (skipLoop skip fuel i).Returns := by
  induction fuel generalizing i with
  | zero => omega
  | succ fuel ih =>
    unfold skipLoop
    refine returns_bind (returns_headerFromBer i) fun r h1 => ?_
    refine returns_bind (hr _ _) fun s h2 => ?_
    split
    · simp
    · apply ih
      have := headerFromBer_pos (rem := r.1) (h := r.2) h1
      have := (hs r.2).length_le (rem := s.1) (a := s.2) h2
      omega

theorem returns_skipContent (d : Nat) (hdr : Header) (i : Bytes) :
    (skipContent d hdr i).Returns := by
  induction d generalizing hdr i with
  | zero => simp [skipContent]
  | succ d ih =>
    simp only [skipContent]
    split
    · split
      · simp
      · exact returns_bind (returns_takeStreaming _ _) (by simp)
    · split
      · exact returns_skipLoop (local_skipContent d) ih (by omega)
      · simp

/-! ## `ber_get_object_content` -/

/-- The value returned by `ber_get_object_content` when `c` is what the content skipper passed
over: the last two bytes are removed for the indefinite form. -/
def contentOf (hdr : Header) (c : Bytes) : Bytes :=
  if hdr.length = .indefinite then c.take (c.length - 2) else c

theorem getObjectContent_of_skip {d : Nat} {hdr : Header} {pre rem : Bytes} {b : Bool}
    (h : skipContent d hdr (pre ++ rem) = .ok (rem, b)) :
    getObjectContent d hdr (pre ++ rem) = .ok (rem, contentOf hdr pre) := by
  unfold getObjectContent
  rw [h]
  have e : (pre ++ rem).length - rem.length = pre.length := by simp
  simp only [ok_bind, e, List.take_left, List.drop_left, contentOf]
  split
  · rename_i hl
    have := skipContent_indef_len hl h
    simp; omega
  · rfl

theorem getObjectContent_ok {d : Nat} {hdr : Header} {i rem c : Bytes}
    (h : getObjectContent d hdr i = .ok (rem, c)) :
    ∃ pre b, i = pre ++ rem ∧ skipContent d hdr (pre ++ rem) = .ok (rem, b) ∧
      c = contentOf hdr pre := by
  have h0 := h
  unfold getObjectContent at h
  obtain ⟨⟨rem', b⟩, h1, h2⟩ := bind_eq_ok.1 h
  obtain ⟨pre, rfl, r⟩ := local_skipContent _ _ _ _ _ h1
  rw [getObjectContent_of_skip h1] at h0
  simp at h0
  obtain ⟨rfl, rfl⟩ := h0
  exact ⟨pre, b, rfl, h1, rfl⟩

theorem local_getObjectContent (d : Nat) (hdr : Header) : Local (getObjectContent d hdr) := by
  intro i rem c h
  obtain ⟨pre, b, rfl, h1, rfl⟩ := getObjectContent_ok h
  obtain ⟨pre', e, r⟩ := local_skipContent _ _ _ _ _ h1
  have : pre = pre' := List.append_cancel_right e
  subst this
  exact ⟨pre, rfl, fun x => getObjectContent_of_skip (r x)⟩

theorem getObjectContent_def_len {d : Nat} {hdr : Header} {i rem c : Bytes} {l : Nat}
    (hl : hdr.length = .definite l) (h : getObjectContent d hdr i = .ok (rem, c)) :
    i = c ++ rem ∧ c.length = l := by
  obtain ⟨pre, b, rfl, h1, rfl⟩ := getObjectContent_ok h
  have := skipContent_def_len hl h1
  simp [contentOf, hl, this]

theorem getObjectContent_definite {d l : Nat} {hdr : Header} (hl : hdr.length = .definite l)
    (c rem : Bytes) (hc : c.length = l) :
    getObjectContent (d + 1) hdr (c ++ rem) = .ok (rem, c) := by
  obtain ⟨b, h⟩ := skipContent_definite (d := d) hl c rem hc
  rw [getObjectContent_of_skip h]
  simp [contentOf, hl]

theorem returns_getObjectContent (d : Nat) (hdr : Header) (i : Bytes) :
    (getObjectContent d hdr i).Returns := by
  have hr := returns_skipContent d hdr i
  cases h : skipContent d hdr i with
  | ok r =>
    obtain ⟨rem, b⟩ := r
    obtain ⟨pre, rfl, _⟩ := local_skipContent _ _ _ _ _ h
    simp [getObjectContent_of_skip h]
  | err e => simp [getObjectContent, h]
  | panic => simp [h] at hr
  | diverge => simp [h] at hr

/-! ## `Any::from_ber` -/

/-- The data of an `Any` has the length its header announces. -/
def Any.WF (a : Any) : Prop := ∀ l, a.header.length = .definite l → a.data.length = l

theorem local_anyFromBer : Local anyFromBer :=
  local_headerFromBer.bind (f := fun h i => getObjectContent maxRecursion h i >>? fun s =>
      .ok (s.1, Any.mk h s.2))
    fun h => (local_getObjectContent maxRecursion h).bind
      (f := fun s i => .ok (i, Any.mk h s)) fun _ => Local.ok _

theorem anyFromBer_ok {i rem : Bytes} {a : Any} (h : anyFromBer i = .ok (rem, a)) :
    ∃ i1, headerFromBer i = .ok (i1, a.header) ∧
      getObjectContent maxRecursion a.header i1 = .ok (rem, a.data) := by
  unfold anyFromBer at h
  obtain ⟨⟨i1, hd⟩, h1, h2⟩ := bind_eq_ok.1 h
  obtain ⟨⟨i2, c⟩, h3, h4⟩ := bind_eq_ok.1 h2
  simp at h4
  obtain ⟨rfl, rfl⟩ := h4
  exact ⟨i1, h1, h3⟩

theorem anyFromBer_wf {i rem : Bytes} {a : Any} (h : anyFromBer i = .ok (rem, a)) : a.WF := by
  obtain ⟨i1, _, h2⟩ := anyFromBer_ok h
  intro l hl
  exact (getObjectContent_def_len hl h2).2

theorem anyFromBer_pos {i rem : Bytes} {a : Any} (h : anyFromBer i = .ok (rem, a)) :
    rem.length + 2 ≤ i.length := by
  obtain ⟨i1, h1, h2⟩ := anyFromBer_ok h
  have := headerFromBer_pos h1
  have := (local_getObjectContent _ _).length_le h2
  omega

theorem returns_anyFromBer (i : Bytes) : (anyFromBer i).Returns :=
  returns_bind (returns_headerFromBer i) fun _ _ =>
    returns_bind (returns_getObjectContent _ _ _) fun _ _ => by simp

/-! ## Conversion of `Any` -/

theorem returns_collectItems {conv : Any → Res BerObject}
    (hc : ∀ a, a.WF → (conv a).Returns) {fuel : Nat} {data : Bytes} (hf : data.length < fuel) :
    (collectItems conv fuel data).Returns := by
  induction fuel generalizing data with
  | zero => omega
  | succ fuel ih =>
    cases data with
    | nil => simp [collectItems]
    | cons b rest =>
      simp only [collectItems]
      refine returns_bind ((returns_mapErr _ _).2 (returns_anyFromBer _)) fun r h1 => ?_
      have h1 := mapErr_eq_ok.1 h1
      refine returns_bind (hc _ (anyFromBer_wf (rem := r.1) (a := r.2) h1)) fun o _ => ?_
      have := anyFromBer_pos (rem := r.1) (a := r.2) h1
      exact returns_bind (ih (by omega)) fun _ _ => by simp

theorem returns_liftExcept {ε : Type} (x : Except ε α) : (liftExcept x).Returns := by
  cases x <;> simp [liftExcept]

theorem returns_universalContent (D : Deps) {conv : Any → Res BerObject}
    (hc : ∀ a, a.WF → (conv a).Returns) {a : Any} (ha : a.WF) :
    (universalContent D conv a).Returns := by
  unfold universalContent
  split
  · split <;> (try split) <;> simp
  · split <;> (try split) <;> (try split) <;> simp
  · simp only [returns_map, Any.bool]
    split
    · rename_i hl
      have := ha 1 hl
      split
      · simp_all
      · simp
    · simp
  · simp
  · simp only [returns_map, Any.enumerated, Header.assertPrimitive]
    refine returns_bind (by split <;> simp) fun _ _ => ?_
    split <;> (try split) <;> simp
  · simpa using returns_liftExcept _
  · unfold strFromAny; split <;> (try split) <;> (try split) <;> simp
  · simp
  · simp
  · simp
  · simp
  · simp
  · refine returns_bind (by unfold Header.assertConstructed; split <;> simp) fun _ _ => ?_
    simpa using returns_collectItems hc (Nat.lt_succ_self _)
  · refine returns_bind (by unfold Header.assertConstructed; split <;> simp) fun _ _ => ?_
    simpa using returns_collectItems hc (Nat.lt_succ_self _)
  · simpa using returns_liftExcept _
  · split <;> simp
  · simp

theorem returns_objectFromAny (D : Deps) (d : Nat) {a : Any} (ha : a.WF) :
    (objectFromAny D d a).Returns := by
  induction d generalizing a with
  | zero => simp [objectFromAny]
  | succ d ih =>
    simp only [objectFromAny]
    split
    · simp
    · simpa using returns_universalContent D (fun a h => ih h) ha

@[simp] theorem returns_liftRes (x : Res α) : (liftRes x).Returns ↔ x.Returns := by
  simp [liftRes]

@[simp] theorem liftRes_eq_ok {x : Res α} {a : α} : liftRes x = .ok a ↔ x = .ok a := by
  simp [liftRes]

@[simp] theorem liftRes_ok (a : α) : liftRes (.ok a : Res α) = .ok a := rfl
@[simp] theorem liftRes_err (e : BerError) : liftRes (.err e : Res α) = .err (.error e) := rfl

/-- A check that does not read the input, followed by a local parser. -/
theorem Local.guard {x : Outcome (NomErr E) α} {f : α → Bytes → IRes E β}
    (hf : ∀ a, x = .ok a → Local (f a)) : Local (fun i => x >>? fun a => f a i) := by
  intro i rem b h
  obtain ⟨a, h1, h2⟩ := bind_eq_ok.1 h
  obtain ⟨pre, rfl, r⟩ := hf a h1 _ _ _ h2
  exact ⟨pre, rfl, fun x => by simp [h1, r x]⟩

theorem local_parseBerAnyR (D : Deps) (d : Nat) : Local (parseBerAnyR D d) := by
  unfold parseBerAnyR
  exact (Local.err _).ite (local_anyFromBer.bind
    (f := fun a i => liftRes (objectFromAny D d a) >>? fun o => .ok (i, o))
    fun a => Local.guard (f := fun o i => .ok (i, o)) fun _ _ => Local.ok _)

theorem local_parseBerAnyWithTagR (D : Deps) (t d : Nat) : Local (parseBerAnyWithTagR D t d) := by
  unfold parseBerAnyWithTagR
  exact (Local.err _).ite (local_anyFromBer.bind
    (f := fun a i => liftRes (a.header.assertTag t) >>? fun _ =>
      liftRes (objectFromAny D d a) >>? fun o => .ok (i, o))
    fun a => Local.guard
      (f := fun _ i => liftRes (objectFromAny D d a) >>? fun o => .ok (i, o)) fun _ _ =>
      Local.guard (f := fun o i => .ok (i, o)) fun _ _ => Local.ok _)

theorem returns_assertTag (h : Header) (t : Nat) : (h.assertTag t).Returns := by
  unfold Header.assertTag; split <;> simp

theorem returns_assertPrimitive (h : Header) : h.assertPrimitive.Returns := by
  unfold Header.assertPrimitive; split <;> simp

theorem returns_assertConstructed (h : Header) : h.assertConstructed.Returns := by
  unfold Header.assertConstructed; split <;> simp

theorem returns_parseBerAnyR (D : Deps) (d : Nat) (i : Bytes) : (parseBerAnyR D d i).Returns := by
  unfold parseBerAnyR
  split
  · simp
  · refine returns_bind (returns_anyFromBer i) fun r h => ?_
    refine returns_bind ?_ fun _ _ => by simp
    simpa using returns_objectFromAny D d (anyFromBer_wf (rem := r.1) (a := r.2) h)

theorem returns_parseBerAnyWithTagR (D : Deps) (t d : Nat) (i : Bytes) :
    (parseBerAnyWithTagR D t d i).Returns := by
  unfold parseBerAnyWithTagR
  split
  · simp
  · refine returns_bind (returns_anyFromBer i) fun r h => ?_
    refine returns_bind (by simpa using returns_assertTag _ _) fun _ _ => ?_
    refine returns_bind ?_ fun _ _ => by simp
    simpa using returns_objectFromAny D d (anyFromBer_wf (rem := r.1) (a := r.2) h)

/-! ## Content-level and typed BER entry points -/

/-- `ber_read_element_content_as` after the length checks. -/
def readContentGo (D : Deps) (tag : Nat) (length : Length) (constructed : Bool) (d : Nat)
    (i : Bytes) : IRes BerError Content :=
  getObjectContent d (Header.new .universal constructed tag length) i >>? fun r =>
    liftRes (objectFromAny D d
      { header := Header.new .universal constructed tag length, data := r.2 }) >>? fun o =>
      .ok (r.1, o.content)

theorem berReadElementContentAs_eq (D : Deps) (i : Bytes) (tag : Nat) (length : Length)
    (c : Bool) (d : Nat) : berReadElementContentAs D i tag length c d =
      match length with
      | .definite l =>
        if maxObjectSize < l then .err (.error .invalidLength)
        else if i.length < l then .err (.incomplete (Needed.new l))
        else readContentGo D tag length c d i
      | .indefinite => readContentGo D tag length c d i := by
  cases length <;> rfl

theorem local_readContentGo (D : Deps) (tag : Nat) (length : Length) (c : Bool) (d : Nat) :
    Local (readContentGo D tag length c d) := by
  unfold readContentGo
  exact (local_getObjectContent d _).bind
    (f := fun x i => liftRes (objectFromAny D d
      { header := Header.new .universal c tag length, data := x }) >>? fun o =>
      .ok (i, o.content))
    fun a => Local.guard (f := fun (o : BerObject) i => .ok (i, o.content)) fun _ _ => Local.ok _

theorem returns_readContentGo (D : Deps) (tag : Nat) (length : Length) (c : Bool) (d : Nat)
    (i : Bytes) : (readContentGo D tag length c d i).Returns := by
  unfold readContentGo
  refine returns_bind (returns_getObjectContent _ _ _) fun r h => ?_
  refine returns_bind ?_ fun _ _ => by simp
  simp only [returns_liftRes]
  refine returns_objectFromAny D d ?_
  intro l hl
  exact (getObjectContent_def_len hl (c := r.2) (rem := r.1) h).2

/-- With a definite length the content is exactly the next `l` bytes. -/
theorem readContentGo_def {D : Deps} {tag l : Nat} {c : Bool} {d : Nat} {i rem : Bytes}
    {x : Content} (h : readContentGo D tag (.definite l) c d i = .ok (rem, x)) :
    ∃ data, i = data ++ rem ∧ data.length = l ∧
      ∃ o, objectFromAny D d ⟨Header.new .universal c tag (.definite l), data⟩ = .ok o ∧
        x = o.content := by
  unfold readContentGo at h
  obtain ⟨⟨i1, data⟩, h1, h2⟩ := bind_eq_ok.1 h
  obtain ⟨o, h3, h4⟩ := bind_eq_ok.1 h2
  simp at h4 h3
  obtain ⟨rfl, rfl⟩ := h4
  obtain ⟨rfl, hl⟩ := getObjectContent_def_len (l := l) rfl h1
  exact ⟨data, rfl, hl, o, h3, rfl⟩

theorem local_berReadElementContentAs (D : Deps) (tag : Nat) (length : Length) (c : Bool)
    (d : Nat) : Local (fun i => berReadElementContentAs D i tag length c d) := by
  cases length with
  | indefinite => exact local_readContentGo D tag .indefinite c d
  | definite l =>
    intro i rem x h
    simp only [berReadElementContentAs_eq] at h
    split at h
    · simp at h
    split at h
    · simp at h
    rename_i h1 h2
    obtain ⟨pre, rfl, r⟩ := local_readContentGo _ _ _ _ _ _ _ _ h
    obtain ⟨data, e, hl, _⟩ := readContentGo_def h
    have : pre = data := List.append_cancel_right e
    subst this
    refine ⟨pre, rfl, fun y => ?_⟩
    simp only [berReadElementContentAs_eq, if_neg h1]
    rw [if_neg (by simp; omega)]
    exact r y

theorem returns_berReadElementContentAs (D : Deps) (i : Bytes) (tag : Nat) (length : Length)
    (c : Bool) (d : Nat) : (berReadElementContentAs D i tag length c d).Returns := by
  rw [berReadElementContentAs_eq]
  split
  · split
    · simp
    split
    · simp
    · exact returns_readContentGo ..
  · exact returns_readContentGo ..

theorem local_parseBerWithTag (D : Deps) (tag : Nat) : Local (parseBerWithTag D tag) :=
  local_headerFromBer.bind (f := fun (h : Header) i => liftRes (h.assertTag tag) >>? fun _ =>
      berReadElementContentAs D i h.tag h.length h.constructed maxRecursion >>? fun s =>
        .ok (s.1, BerObject.mk h s.2)) fun h =>
    Local.guard (f := fun _ i =>
      berReadElementContentAs D i h.tag h.length h.constructed maxRecursion >>? fun s =>
        .ok (s.1, BerObject.mk h s.2)) fun _ _ =>
      (local_berReadElementContentAs D _ _ _ _).bind
        (f := fun s i => .ok (i, BerObject.mk h s)) fun _ => Local.ok _

theorem returns_parseBerWithTag (D : Deps) (tag : Nat) (i : Bytes) :
    (parseBerWithTag D tag i).Returns := by
  unfold parseBerWithTag
  refine returns_bind (returns_headerFromBer i) fun r _ => ?_
  refine returns_bind (by simpa using returns_assertTag _ _) fun _ _ => ?_
  exact returns_bind (returns_berReadElementContentAs ..) fun _ _ => by simp

theorem returns_objectTryFromAny (D : Deps) (a : Any) : (objectTryFromAny D a).Returns := by
  simp [objectTryFromAny, returns_berReadElementContentAs]

/-! ## Native integers -/

theorem returns_decodeArrayUint (n : Nat) (bs : Bytes) : (decodeArrayUint n bs).Returns := by
  unfold decodeArrayUint
  simp only
  split
  · simp
  split
  · simp
  · rename_i h
    simp [h]

theorem returns_decodeArrayInt (n : Nat) (bs : Bytes) : (decodeArrayInt n bs).Returns := by
  unfold decodeArrayInt; simp only; split <;> simp

/-- Of a number that is not negative `trim_slice` removes the leading zeroes. -/
theorem trimSlice_of_low {bs : Bytes} (h : isHighestBitSet bs = false) : trimSlice bs = removeZeroes bs := by
  match bs with
  | [] => rfl
  | [b] =>
    simp only [trimSlice, removeZeroes, removeFF]
    split
    · rfl
    · split <;> rfl
  | b :: c :: rest =>
    have hb : b ≠ 0xff := by rintro rfl; simp [isHighestBitSet] at h
    simp only [trimSlice]
    split
    · rfl
    · rename_i h0
      rw [removeZeroes, if_neg h0]

theorem asnDecodeArrayUint_eq (n : Nat) (bs : Bytes) : asnDecodeArrayUint n bs = decodeArrayUint n bs := by
  unfold asnDecodeArrayUint decodeArrayUint
  by_cases h : isHighestBitSet bs = true
  · rw [if_pos h, if_pos h]
  · rw [if_neg h, if_neg h, trimSlice_of_low (by simpa using h)]

theorem returns_asnDecodeArrayInt (n : Nat) (bs : Bytes) : (asnDecodeArrayInt n bs).Returns := by
  unfold asnDecodeArrayInt; simp only; split <;> simp

theorem returns_uintFromAny (n : Nat) (a : Any) : (uintFromAny n a).Returns := by
  unfold uintFromAny
  refine returns_bind (returns_assertTag _ _) fun _ _ => ?_
  refine returns_bind (returns_assertPrimitive _) fun _ _ => ?_
  simpa [asnDecodeArrayUint_eq] using returns_decodeArrayUint _ _

theorem returns_intFromAny (n : Nat) (a : Any) : (intFromAny n a).Returns := by
  unfold intFromAny
  refine returns_bind (returns_assertTag _ _) fun _ _ => ?_
  refine returns_bind (returns_assertPrimitive _) fun _ _ => ?_
  split
  · simpa using returns_asnDecodeArrayInt _ _
  · refine returns_bind (asnDecodeArrayUint_eq n _ ▸ returns_decodeArrayUint _ _) fun _ _ => ?_
    split <;> simp

theorem local_parseBerUint (n : Nat) : Local (parseBerUint n) :=
  local_anyFromBer.bind (f := fun a i => liftRes (uintFromAny n a) >>? fun v => .ok (i, v))
    fun _ => Local.guard (f := fun v i => .ok (i, v)) fun _ _ => Local.ok _

theorem local_parseBerInt (n : Nat) : Local (parseBerInt n) :=
  local_anyFromBer.bind (f := fun a i => liftRes (intFromAny n a) >>? fun v => .ok (i, v))
    fun _ => Local.guard (f := fun v i => .ok (i, v)) fun _ _ => Local.ok _

theorem returns_parseBerUint (n : Nat) (i : Bytes) : (parseBerUint n i).Returns :=
  returns_bind (returns_anyFromBer i) fun _ _ =>
    returns_bind (by simpa using returns_uintFromAny _ _) fun _ _ => by simp

theorem returns_parseBerInt (n : Nat) (i : Bytes) : (parseBerInt n i).Returns :=
  returns_bind (returns_anyFromBer i) fun _ _ =>
    returns_bind (by simpa using returns_intFromAny _ _) fun _ _ => by simp

end Verif
