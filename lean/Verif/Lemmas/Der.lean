import Verif.Lemmas.Ber
/-!
# DER parsing and combinators: locality and totality
-/
namespace Verif
open Outcome

variable {E α β O : Type}

/-! ## Exact description of content reading for definite lengths -/

theorem berReadElementContentAs_definite (D : Deps) (tag l : Nat) (c : Bool) (d : Nat)
    (pre x : Bytes) (hl : pre.length = l) :
    berReadElementContentAs D (pre ++ x) tag (.definite l) c d =
      if maxObjectSize < l then .err (.error .invalidLength)
      else liftRes (objectFromAny D d ⟨Header.new .universal c tag (.definite l), pre⟩) >>? fun o =>
        .ok (x, o.content) := by
  rw [berReadElementContentAs_eq]
  simp only
  split
  · rfl
  rw [if_neg (by simp; omega)]
  unfold readContentGo
  cases d with
  | zero => simp [getObjectContent, skipContent, objectFromAny]
  | succ d => rw [getObjectContent_definite (l := l) rfl pre x hl]; rfl

theorem derCheck_append (pre x : Bytes) (tag l : Nat) (c : Bool) (hl : pre.length = l) :
    derCheck (pre ++ x) tag l c = derCheck pre tag l c := by
  unfold derCheck
  subst hl
  cases uKind tag <;> simp only
  · cases pre with
    | nil => simp
    | cons b rest => rfl
  · simp; omega
  · cases pre with
    | nil => simp
    | cons b rest => rw [List.getElem?_append_left (by simp)]
  · cases pre with
    | nil => simp
    | cons b rest => rw [List.getElem?_append_left (by simp)]

theorem returns_derCheck (i : Bytes) (tag l : Nat) (c : Bool) (hl : l ≤ i.length) :
    (derCheck i tag l c).Returns := by
  unfold derCheck
  split
  · split
    · simp
    · split
      · simp at hl; omega
      · split <;> simp
  · split
    · omega
    · unfold derIntegerCheck; split <;> (try split) <;> simp
  all_goals first | (split <;> simp) | simp

theorem returns_derReadContentBitstring (i : Bytes) (l : Nat) :
    (derReadContentBitstring i l).Returns := by
  unfold derReadContentBitstring
  split
  · simp
  split
  · simp
  split
  · simp
  refine returns_bind (returns_takeStreaming _ _) fun r h => ?_
  obtain ⟨_, h2⟩ := takeStreaming_ok (rem := r.1) (a := r.2) h
  split
  · rename_i hlt
    split
    · rename_i hn
      rw [List.getElem?_eq_none_iff] at hn
      omega
    · split <;> simp
  · simp

theorem derReadContentBitstring_ok {i rem : Bytes} {l : Nat} {x : Content}
    (h : derReadContentBitstring i l = .ok (rem, x)) :
    ∃ u data, i = u :: data ++ rem ∧ data.length + 1 = l ∧ u.toNat ≤ 7 ∧ x = .bitString u data ∧
      (∀ last, data.getLast? = some last → unusedBitsZero u.toNat last.toNat = true) ∧
      ∀ y, derReadContentBitstring (u :: data ++ y) l = .ok (y, x) := by
  unfold derReadContentBitstring at h
  split at h
  · simp at h
  rename_i u i
  split at h
  · simp at h
  rename_i hu
  split at h
  · simp at h
  rename_i hl0
  obtain ⟨⟨r, data⟩, h1, h2⟩ := bind_eq_ok.1 h
  obtain ⟨rfl, hlen⟩ := takeStreaming_ok h1
  have e : l - 1 = data.length := by omega
  simp only at h2
  split at h2
  · rename_i hl1
    split at h2
    · simp at h2
    rename_i last hlast
    split at h2
    · rename_i hz
      simp at h2
      obtain ⟨rfl, rfl⟩ := h2
      refine ⟨u, data, by simp, by omega, by omega, rfl, ?_, ?_⟩
      · intro last' hl'
        rw [List.getLast?_eq_getElem?, ← e] at hl'
        have : l - 1 - 1 = l - 2 := by omega
        rw [this, hlast] at hl'
        simp at hl'
        rw [← hl']; exact hz
      · intro y
        simp only [List.cons_append, derReadContentBitstring, if_neg hu, if_neg hl0]
        rw [e, takeStreaming_append]
        simp [hl1, hlast, hz]
    · simp at h2
  · rename_i hl1
    simp at h2
    obtain ⟨rfl, rfl⟩ := h2
    refine ⟨u, data, by simp, by omega, by omega, rfl, ?_, ?_⟩
    · intro last' hl'
      have : data = [] := List.length_eq_zero_iff.1 (by omega)
      simp [this] at hl'
    · intro y
      simp only [List.cons_append, derReadContentBitstring, if_neg hu, if_neg hl0]
      rw [e, takeStreaming_append]
      simp [hl1]

theorem derReadElementContentAs_definite (D : Deps) (tag l : Nat) (c : Bool) (d : Nat)
    (pre x : Bytes) (hl : pre.length = l) :
    derReadElementContentAs D (pre ++ x) tag (.definite l) c d =
      if tag = Tag.bitString then
        if c then .err (.error (.derConstraintFailed .constructed))
        else derReadContentBitstring (pre ++ x) l
      else
        liftRes (derCheck pre tag l c) >>? fun _ =>
          if maxObjectSize < l then .err (.error .invalidLength)
          else liftRes (objectFromAny D d ⟨Header.new .universal c tag (.definite l), pre⟩) >>?
            fun o => .ok (x, o.content) := by
  unfold derReadElementContentAs
  simp only [Length.definite?, liftRes_ok, ok_bind]
  rw [if_neg (by simp; omega)]
  rw [derCheck_append _ _ _ _ _ hl, berReadElementContentAs_definite _ _ _ _ _ _ _ hl]

/-- `der_read_element_content_as` succeeds on the next `l` bytes only. -/
theorem derReadElementContentAs_ok {D : Deps} {tag : Nat} {len : Length} {c : Bool} {d : Nat}
    {i rem : Bytes} {v : Content} (h : derReadElementContentAs D i tag len c d = .ok (rem, v)) :
    ∃ l pre, len = .definite l ∧ i = pre ++ rem ∧ pre.length = l ∧
      ∀ x, derReadElementContentAs D (pre ++ x) tag len c d = .ok (x, v) := by
  cases len with
  | indefinite => simp [derReadElementContentAs, Length.definite?] at h
  | definite l =>
    by_cases hi : i.length < l
    · simp [derReadElementContentAs, Length.definite?, hi] at h
    · have hi' : i = i.take l ++ i.drop l := by simp
      have hlen : (i.take l).length = l := by simp; omega
      rw [hi', derReadElementContentAs_definite _ _ _ _ _ _ _ hlen] at h
      refine ⟨l, i.take l, rfl, ?_⟩
      split at h
      · rename_i ht
        split at h
        · simp at h
        · rename_i hc
          obtain ⟨u, data, e, h1, h2, rfl, h3, h4⟩ := derReadContentBitstring_ok h
          have e1 : i.take l = u :: data := by
            have : (i.take l).length = (u :: data).length := by simp at hlen ⊢; omega
            exact (List.append_inj e this).1
          have e2 : i.drop l = rem := by rw [e1] at e; exact List.append_cancel_left e
          refine ⟨by rw [← e2]; exact hi', hlen, fun x => ?_⟩
          rw [derReadElementContentAs_definite _ _ _ _ _ _ _ hlen, e1]
          simp only [ht, hc, if_true]
          exact h4 x
      · rename_i ht
        have hr : i.drop l = rem := by
          obtain ⟨_, _, h2⟩ := bind_eq_ok.1 h
          split at h2
          · simp at h2
          · obtain ⟨_, _, h3⟩ := bind_eq_ok.1 h2
            simp at h3; exact h3.1
        refine ⟨by rw [← hr]; exact hi', hlen, fun x => ?_⟩
        rw [derReadElementContentAs_definite _ _ _ _ _ _ _ hlen, if_neg ht]
        obtain ⟨_, h1, h2⟩ := bind_eq_ok.1 h
        rw [h1]
        simp only [ok_bind]
        split at h2
        · simp at h2
        · rename_i hm
          obtain ⟨o, h3, h4⟩ := bind_eq_ok.1 h2
          simp at h4
          simp [hm, h3, h4.2]

theorem local_derReadElementContentAs (D : Deps) (tag : Nat) (len : Length) (c : Bool) (d : Nat) :
    Local (fun i => derReadElementContentAs D i tag len c d) := by
  intro i rem v h
  obtain ⟨l, pre, _, rfl, _, r⟩ := derReadElementContentAs_ok h
  exact ⟨pre, rfl, r⟩

theorem returns_derReadElementContentAs (D : Deps) (i : Bytes) (tag : Nat) (len : Length)
    (c : Bool) (d : Nat) : (derReadElementContentAs D i tag len c d).Returns := by
  unfold derReadElementContentAs
  refine returns_bind (by cases len <;> simp [Length.definite?]) fun l _ => ?_
  split
  · simp
  split
  · split
    · simp
    · exact returns_derReadContentBitstring _ _
  · refine returns_bind (by simpa using returns_derCheck _ _ _ _ (by omega)) fun _ _ => ?_
    exact returns_berReadElementContentAs ..

theorem local_derUnknown (hdr : Header) (d : Nat) : Local (fun i => derUnknown i hdr d) :=
  (local_getObjectContent d hdr).bind
    (f := fun c i => .ok (i, BerObject.mk hdr (.unknown { header := hdr, data := c })))
    fun _ => Local.ok _

theorem returns_derUnknown (i : Bytes) (hdr : Header) (d : Nat) : (derUnknown i hdr d).Returns :=
  returns_bind (returns_getObjectContent _ _ _) fun _ _ => by simp

/-- An `unknownTag` error (which only the time parsers of the trusted base could raise) does not
depend on what follows the content. -/
theorem derReadElementContentAs_unknownTag {D : Deps} {tag l : Nat} {c : Bool} {d : Nat}
    {pre x : Bytes} {t : Nat} (hl : pre.length = l)
    (h : derReadElementContentAs D (pre ++ x) tag (.definite l) c d =
      .err (.error (.unknownTag t))) (y : Bytes) :
    derReadElementContentAs D (pre ++ y) tag (.definite l) c d = .err (.error (.unknownTag t)) := by
  rw [derReadElementContentAs_definite _ _ _ _ _ _ _ hl] at h ⊢
  split at h
  · split at h
    · simp at h
    · exfalso
      unfold derReadContentBitstring at h
      split at h
      · simp at h
      split at h
      · simp at h
      split at h
      · simp at h
      rcases bind_eq_err.1 h with h | ⟨r, _, h⟩
      · unfold takeStreaming at h; split at h <;> simp at h
      · split at h
        · split at h
          · simp at h
          · split at h <;> simp at h
        · simp at h
  · rename_i ht
    rw [if_neg ht]
    rcases bind_eq_err.1 h with h | ⟨_, h1, h⟩
    · rw [h]; rfl
    · rw [h1]
      simp only [ok_bind]
      split at h
      · simp at h
      · rename_i hm
        rw [if_neg hm]
        rcases bind_eq_err.1 h with h | ⟨_, _, h⟩
        · rw [h]; rfl
        · simp at h

theorem local_derReadElementContentRecursive (D : Deps) (hdr : Header) (d : Nat) :
    Local (fun i => derReadElementContentRecursive D i hdr d) := by
  by_cases hc : hdr.cls = .universal
  · intro i rem o h
    simp only [derReadElementContentRecursive, hc, ne_eq, not_true_eq_false, if_false] at h
    split at h
    · rename_i r hr
      obtain ⟨pre, e, rr⟩ := local_derReadElementContentAs D _ _ _ _ _ _ _ hr
      simp at h
      refine ⟨pre, by rw [e, h.1], fun x => ?_⟩
      have := rr x
      simp only [derReadElementContentRecursive, hc, ne_eq, not_true_eq_false, if_false, this]
      simp [h.2]
    · rename_i t ht
      obtain ⟨pre, rfl, rr⟩ := local_derUnknown hdr d _ _ _ h
      refine ⟨pre, rfl, fun x => ?_⟩
      cases hlen : hdr.length with
      | indefinite =>
        rw [hlen] at ht
        simp [derReadElementContentAs, Length.definite?] at ht
      | definite l =>
        have hl : pre.length = l := by
          unfold derUnknown at h
          obtain ⟨⟨i1, c⟩, h1, h2⟩ := bind_eq_ok.1 h
          simp at h2
          obtain ⟨e, hl⟩ := getObjectContent_def_len hlen h1
          rw [h2.1] at e
          rw [List.append_cancel_right e]; exact hl
        rw [hlen] at ht
        have := derReadElementContentAs_unknownTag hl ht x
        simp only [derReadElementContentRecursive, hc, ne_eq, not_true_eq_false, if_false, hlen,
          this]
        exact rr x
    · simp at h
    · simp at h
    · simp at h
  · refine (local_derUnknown hdr d).congr fun i => ?_
    simp [derReadElementContentRecursive, hc]

theorem returns_derReadElementContentRecursive (D : Deps) (i : Bytes) (hdr : Header) (d : Nat) :
    (derReadElementContentRecursive D i hdr d).Returns := by
  have h1 := returns_derUnknown i hdr d
  have h2 := returns_derReadElementContentAs D i hdr.tag hdr.length hdr.constructed d
  unfold derReadElementContentRecursive
  split
  · exact h1
  · split
    · simp
    · exact h1
    · simp
    · rename_i h; simp [h] at h2
    · rename_i h; simp [h] at h2

theorem local_parseDerRecursive (D : Deps) (d : Nat) : Local (parseDerRecursive D d) := by
  unfold parseDerRecursive
  refine local_headerFromDer.bind (f := fun h i => match h.length with
    | .definite l =>
      if maxObjectSize < l then .err (.error .invalidLength)
      else derReadElementContentRecursive D i h d
    | .indefinite => derReadElementContentRecursive D i h d) fun h => ?_
  cases h.length with
  | definite l => exact (Local.err _).ite (local_derReadElementContentRecursive D h d)
  | indefinite => exact local_derReadElementContentRecursive D h d

theorem returns_parseDerRecursive (D : Deps) (d : Nat) (i : Bytes) :
    (parseDerRecursive D d i).Returns := by
  unfold parseDerRecursive
  refine returns_bind (returns_headerFromDer i) fun r _ => ?_
  split
  · split
    · simp
    · exact returns_derReadElementContentRecursive ..
  · exact returns_derReadElementContentRecursive ..

theorem local_parseDerWithTag (D : Deps) (tag : Nat) : Local (parseDerWithTag D tag) :=
  local_headerFromDer.bind (f := fun (h : Header) i => liftRes (h.assertTag tag) >>? fun _ =>
      derReadElementContentAs D i h.tag h.length h.constructed maxRecursion >>? fun s =>
        .ok (s.1, BerObject.mk h s.2)) fun h =>
    Local.guard (f := fun _ i =>
      derReadElementContentAs D i h.tag h.length h.constructed maxRecursion >>? fun s =>
        .ok (s.1, BerObject.mk h s.2)) fun _ _ =>
      (local_derReadElementContentAs D _ _ _ _).bind
        (f := fun s i => .ok (i, BerObject.mk h s)) fun _ => Local.ok _

theorem returns_parseDerWithTag (D : Deps) (tag : Nat) (i : Bytes) :
    (parseDerWithTag D tag i).Returns := by
  unfold parseDerWithTag
  refine returns_bind (returns_headerFromDer i) fun r _ => ?_
  refine returns_bind (by simpa using returns_assertTag _ _) fun _ _ => ?_
  exact returns_bind (returns_derReadElementContentAs ..) fun _ _ => by simp

/-! ## `Any::from_der` and native integers -/

theorem local_anyFromDer : Local anyFromDer :=
  local_headerFromDer.bind (f := fun (h : Header) i => liftRes h.length.definite? >>? fun l =>
      takeStreaming l i >>? fun s => .ok (s.1, Any.mk h s.2)) fun h =>
    Local.guard (f := fun l i => takeStreaming l i >>? fun s => .ok (s.1, Any.mk h s.2))
      fun l _ => (local_takeStreaming l).bind (f := fun s i => .ok (i, Any.mk h s))
        fun _ => Local.ok _

theorem anyFromDer_ok {i rem : Bytes} {a : Any} (h : anyFromDer i = .ok (rem, a)) :
    ∃ i1 l, headerFromDer i = .ok (i1, a.header) ∧ a.header.length = .definite l ∧
      i1 = a.data ++ rem ∧ a.data.length = l := by
  unfold anyFromDer at h
  obtain ⟨⟨i1, hd⟩, h1, h2⟩ := bind_eq_ok.1 h
  obtain ⟨l, h3, h4⟩ := bind_eq_ok.1 h2
  obtain ⟨⟨i2, c⟩, h5, h6⟩ := bind_eq_ok.1 h4
  simp at h6 h3
  obtain ⟨rfl, rfl⟩ := h6
  obtain ⟨e1, e2⟩ := takeStreaming_ok h5
  refine ⟨i1, l, h1, ?_, e1, e2⟩
  cases hl : hd.length <;> simp_all [Length.definite?]

theorem returns_anyFromDer (i : Bytes) : (anyFromDer i).Returns :=
  returns_bind (returns_headerFromDer i) fun r _ =>
    returns_bind (by cases r.2.length <;> simp [Length.definite?]) fun _ _ =>
      returns_bind (returns_takeStreaming _ _) fun _ _ => by simp

theorem returns_derIntConstraints (bs : Bytes) : (derIntConstraints bs).Returns := by
  unfold derIntConstraints; split <;> (try split) <;> (try split) <;> simp

theorem local_parseDerUint (n : Nat) : Local (parseDerUint n) :=
  local_anyFromDer.bind (f := fun (a : Any) i => liftRes a.header.assertPrimitive >>? fun _ =>
      liftRes (derIntConstraints a.data) >>? fun _ =>
        liftRes (uintFromAny n a) >>? fun v => .ok (i, v)) fun a =>
    Local.guard (f := fun _ i => liftRes (derIntConstraints a.data) >>? fun _ =>
        liftRes (uintFromAny n a) >>? fun v => .ok (i, v)) fun _ _ =>
      Local.guard (f := fun _ i => liftRes (uintFromAny n a) >>? fun v => .ok (i, v)) fun _ _ =>
        Local.guard (f := fun v i => .ok (i, v)) fun _ _ => Local.ok _

theorem local_parseDerInt (n : Nat) : Local (parseDerInt n) :=
  local_anyFromDer.bind (f := fun (a : Any) i => liftRes a.header.assertPrimitive >>? fun _ =>
      liftRes (derIntConstraints a.data) >>? fun _ =>
        liftRes (intFromAny n a) >>? fun v => .ok (i, v)) fun a =>
    Local.guard (f := fun _ i => liftRes (derIntConstraints a.data) >>? fun _ =>
        liftRes (intFromAny n a) >>? fun v => .ok (i, v)) fun _ _ =>
      Local.guard (f := fun _ i => liftRes (intFromAny n a) >>? fun v => .ok (i, v)) fun _ _ =>
        Local.guard (f := fun v i => .ok (i, v)) fun _ _ => Local.ok _

theorem returns_parseDerUint (n : Nat) (i : Bytes) : (parseDerUint n i).Returns :=
  returns_bind (returns_anyFromDer i) fun _ _ =>
    returns_bind (by simpa using returns_assertPrimitive _) fun _ _ =>
      returns_bind (by simpa using returns_derIntConstraints _) fun _ _ =>
        returns_bind (by simpa using returns_uintFromAny _ _) fun _ _ => by simp

theorem returns_parseDerInt (n : Nat) (i : Bytes) : (parseDerInt n i).Returns :=
  returns_bind (returns_anyFromDer i) fun _ _ =>
    returns_bind (by simpa using returns_assertPrimitive _) fun _ _ =>
      returns_bind (by simpa using returns_derIntConstraints _) fun _ _ =>
        returns_bind (by simpa using returns_intFromAny _ _) fun _ _ => by simp

end Verif
