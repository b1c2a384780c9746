import Verif.Props.Reproduce
/-!
# Property C106: what parse_der accepts and is not DER

The converse of C102.
-/
namespace Verif
open Outcome Spec

/-! ## Specification -/

namespace Spec

/-- Contents octets `c` of the universal type `num` that are not DER but read by the parser.  `outer` says that it is the
outermost element; the parser is more strict there.  `k` says that the encoding is constructed. -/
inductive Undue (outer : Bool) (num : Nat) (k : Bool) (c : Bytes) : Prop
  /-- End-of-contents octets are not a type. -/
  | endOfContents : num = 0 → Undue outer num k c
  /-- Constructed encodings of types other than SEQUENCE, SET, EXTERNAL, EMBEDDED PDV, CHARACTER STRING. -/
  | constructed : k = true → num ∉ [8, 11, 16, 17, 29] → Undue outer num k c
  /-- Primitive encodings of EXTERNAL, EMBEDDED PDV, CHARACTER STRING. -/
  | primitive : k = false → num ∈ [8, 11, 29] → Undue outer num k c
  /-- BOOLEAN true other than `ff`. -/
  | boolean (b : UInt8) : outer = false → num = 1 → c = [b] → b ≠ 0x00 → b ≠ 0xff → Undue outer num k c
  /-- INTEGER without contents. -/
  | integerEmpty : outer = false → num = 2 → c = [] → Undue outer num k c
  /-- INTEGER whose first nine bits are zero. -/
  | integerZeroes : outer = false → num = 2 → (bitsOf c).take 9 = List.replicate 9 false → Undue outer num k c
  /-- INTEGER whose first nine bits are one, also in the outermost element. -/
  | integerOnes : num = 2 → (bitsOf c).take 9 = List.replicate 9 true → Undue outer num k c
  /-- BIT STRING with more than seven unused bits. -/
  | bitsUnused (u : UInt8) (s : Bytes) : outer = false → num = 3 → c = u :: s → 7 < u.toNat → Undue outer num k c
  /-- BIT STRING with unused bits that are not zero. -/
  | bitsNotZero (u : UInt8) (s : Bytes) : outer = false → num = 3 → c = u :: s →
      true ∈ (bitsOf s).drop (8 * s.length - u.toNat) → Undue outer num k c
  /-- BIT STRING without any bits, of which some are unused; also in the outermost element. -/
  | bitsNone (u : UInt8) : num = 3 → c = [u] → u ≠ 0 → Undue outer num k c
  /-- NULL with contents. -/
  | null : num = 5 → c ≠ [] → Undue outer num k c
  /-- OBJECT IDENTIFIER or RELATIVE-OID that is not a list of subidentifiers. -/
  | oid : num = 6 ∨ num = 13 → ¬ OidContents c → Undue outer num k c
  /-- ENUMERATED that is empty or not minimal. -/
  | enumerated : num = 10 → ¬ MinInt c → Undue outer num k c
  /-- Times in other forms, as far as the date library knows them. -/
  | utcTime : num = 23 → ¬ UtcContents c → Undue outer num k c
  | generalizedTime : num = 24 → ¬ GeneralizedContents c → Undue outer num k c
  /-- VisibleString with the control character DELETE. -/
  | delete : num = 26 → 0x7f ∈ c → Undue outer num k c
  /-- UniversalString that is not a number of four-octet characters. -/
  | universal : num = 28 → c.length % 4 ≠ 0 → Undue outer num k c
  /-- BMPString with characters outside the Basic Multilingual Plane. -/
  | bmp : num = 30 → (∀ cs : List Nat, (∀ x ∈ cs, IsScalar x ∧ x < 0x10000) → c ≠ cs.flatMap utf16Enc) →
      Undue outer num k c

/-- Elements that are not DER: identifier octets or length octets that could be shorter, an indefinite length, undue
contents, or a member of a SEQUENCE or SET that is not DER. -/
inductive Fault : Bool → Bytes → Prop
  | ident (o : Bool) (id id' rest : Bytes) (cls : Class) (k : Bool) (num : Nat) : IdentOctets id cls k num →
      IdentOctets id' cls k num → id'.length < id.length → Fault o (id ++ rest)
  | length (o : Bool) (id len len' rest : Bytes) (cls : Class) (k : Bool) (num n : Nat) : IdentOctets id cls k num →
      LenOctets len (.definite n) → LenOctets len' (.definite n) → len'.length < len.length →
      Fault o (id ++ (len ++ rest))
  | indefinite (id rest : Bytes) (cls : Class) (k : Bool) (num : Nat) : IdentOctets id cls k num →
      Fault false (id ++ 0x80 :: rest)
  | contents (o : Bool) (id len c : Bytes) (k : Bool) (num : Nat) : IdentOctets id .universal k num →
      LenOctets len (.definite c.length) → Undue o num k c → Fault o (id ++ (len ++ c))
  | member (o : Bool) (id len : Bytes) (es : List Bytes) (e : Bytes) (num : Nat) :
      IdentOctets id .universal true num → num = 16 ∨ num = 17 → LenOctets len (.definite es.flatten.length) →
      (∀ x ∈ es, ∃ h c, Framed 50 x h c) → e ∈ es → Fault false e → Fault o (id ++ (len ++ es.flatten))

end Spec

/-! ## Lemmas -/

theorem subsequent_unique : ∀ {ms ms' r r' : Bytes} {l l' : UInt8}, (∀ m ∈ ms, 128 ≤ m.toNat) → l.toNat < 128 →
    (∀ m ∈ ms', 128 ≤ m.toNat) → l'.toNat < 128 → ms ++ l :: r = ms' ++ l' :: r' → ms = ms' ∧ l = l' ∧ r = r'
  | [], [], _, _, _, _, _, _, _, _, e => by simpa using e
  | [], m :: ms, _, _, _, _, _, h1, h2, _, e => by
    simp only [List.nil_append, List.cons_append, List.cons.injEq] at e
    have := h2 m (by simp)
    rw [e.1] at h1
    omega
  | m :: ms, [], _, _, _, _, h1, _, _, h2, e => by
    simp only [List.nil_append, List.cons_append, List.cons.injEq] at e
    have := h1 m (by simp)
    rw [e.1] at this
    omega
  | m :: ms, m' :: ms', _, _, _, _, h1, h2, h3, h4, e => by
    simp only [List.cons_append, List.cons.injEq] at e
    obtain ⟨rfl, rfl, rfl⟩ := subsequent_unique (fun x hx => h1 x (by simp [hx])) h2
      (fun x hx => h3 x (by simp [hx])) h4 e.2
    exact ⟨by rw [e.1], rfl, rfl⟩

theorem identOctets_unique {id id' r r' : Bytes} {cls cls' : Class} {k k' : Bool} {num num' : Nat}
    (h : IdentOctets id cls k num) (h' : IdentOctets id' cls' k' num') (e : id ++ r = id' ++ r') :
    id = id' ∧ cls = cls' ∧ k = k' ∧ num = num' ∧ r = r' := by
  cases h with
  | low b hb =>
    cases h' with
    | low b' hb' =>
      simp only [List.cons_append, List.nil_append, List.cons.injEq] at e
      obtain ⟨rfl, rfl⟩ := e
      exact ⟨rfl, rfl, rfl, rfl, rfl⟩
    | high b' ms last hb' =>
      simp only [List.cons_append, List.nil_append, List.cons.injEq] at e
      rw [e.1] at hb
      exact absurd hb' hb
  | high b ms last hb hm hl =>
    cases h' with
    | low b' hb' =>
      simp only [List.cons_append, List.nil_append, List.cons.injEq] at e
      rw [e.1] at hb
      exact absurd hb hb'
    | high b' ms' last' hb' hm' hl' =>
      simp only [List.cons_append, List.append_assoc, List.nil_append, List.cons.injEq] at e
      obtain ⟨rfl, e⟩ := e
      obtain ⟨rfl, rfl, rfl⟩ := subsequent_unique hm hl hm' hl' e
      exact ⟨rfl, rfl, rfl, rfl, rfl⟩

theorem lenOctets_unique {len len' r r' : Bytes} {l l' : Length} (h : LenOctets len l) (h' : LenOctets len' l')
    (e : len ++ r = len' ++ r') : len = len' ∧ l = l' ∧ r = r' := by
  have h80 : (0x80 : UInt8).toNat = 128 := rfl
  cases h with
  | short b hb =>
    cases h' with
    | short b' hb' =>
      simp only [List.cons_append, List.nil_append, List.cons.injEq] at e
      obtain ⟨rfl, rfl⟩ := e
      exact ⟨rfl, rfl, rfl⟩
    | long b' ds h1 =>
      simp only [List.cons_append, List.nil_append, List.cons.injEq] at e
      rw [e.1] at hb; omega
    | indefinite =>
      simp only [List.cons_append, List.nil_append, List.cons.injEq] at e
      rw [e.1] at hb; omega
  | long b ds h1 h2 h3 =>
    cases h' with
    | short b' hb' =>
      simp only [List.cons_append, List.nil_append, List.cons.injEq] at e
      rw [e.1] at h1; omega
    | long b' ds' h1' h2' h3' =>
      simp only [List.cons_append, List.cons.injEq] at e
      obtain ⟨rfl, e⟩ := e
      obtain ⟨rfl, rfl⟩ := List.append_inj e (by omega)
      exact ⟨rfl, rfl, rfl⟩
    | indefinite =>
      simp only [List.cons_append, List.nil_append, List.cons.injEq] at e
      rw [e.1] at h1; omega
  | indefinite =>
    cases h' with
    | short b' hb' =>
      simp only [List.cons_append, List.nil_append, List.cons.injEq] at e
      rw [← e.1] at hb'; omega
    | long b' ds h1 =>
      simp only [List.cons_append, List.nil_append, List.cons.injEq] at e
      rw [← e.1] at h1; omega
    | indefinite => simpa using e

theorem derDoc_parts {P : Class → Nat → Bytes → Prop} {d : Nat} {e : Bytes} (H : DerDoc P d e) :
    ∃ id len c cls k num, e = id ++ (len ++ c) ∧ MinIdent id cls k num ∧ MinLen len c.length ∧
      ((k = false ∧ (cls = .universal → PrimContents num c)) ∨
        (k = true ∧ (cls ≠ .universal ∨ num = 8 ∨ num = 11 ∨ num = 29)) ∨
        (k = true ∧ cls = .universal ∧ (num = 16 ∨ num = 17) ∧ ∃ (es : List Bytes) (d' : Nat), c = es.flatten ∧ ∀ e ∈ es, DerDoc P d' e)) := by
  cases H with
  | primitive d id len c cls num h1 h2 h3 h4 =>
    exact ⟨id, len, c, cls, false, num, by simp, h1, h2, .inl ⟨rfl, h3⟩⟩
  | list d id len es num h1 h2 h3 h4 =>
    exact ⟨id, len, _, _, true, num, by simp, h1, h3, .inr (.inr ⟨rfl, rfl, h2, es, d, rfl, h4⟩)⟩
  | constructed d id len c cls num h1 h2 h3 h4 =>
    exact ⟨id, len, c, cls, true, num, by simp, h1, h2, .inr (.inl ⟨rfl, h3⟩)⟩

theorem framed_parts {n : Nat} {e c : Bytes} {h : Header} (H : Framed n e h c) :
    ∃ id len num rest, e = id ++ (len ++ rest) ∧ IdentOctets id h.cls h.constructed num ∧ LenOctets len h.length ∧
      h.tag = num % 2 ^ 32 ∧ (h.length ≠ .indefinite → rest = c ∧ h.length = .definite c.length) := by
  cases H with
  | definite hb c h H hl =>
    obtain ⟨id, len, num, rfl, h1, h2, h3, _, _⟩ := H.octets
    exact ⟨id, len, num, c, by simp, h1, h2, h3, fun _ => ⟨rfl, hl⟩⟩
  | indefinite m hb es t h hn H hl hes ht =>
    obtain ⟨id, len, num, rfl, h1, h2, h3, _, _⟩ := H.octets
    exact ⟨id, len, num, es.flatten ++ t, by simp, h1, h2, h3, fun hx => absurd hl hx⟩

theorem derDoc_framed_unique {P : Class → Nat → Bytes → Prop} {d n : Nat} {e f r r' c : Bytes} {h : Header}
    (H : DerDoc P d e) (H' : Framed n f h c) (he : e ++ r = f ++ r') : e = f ∧ r = r' := by
  obtain ⟨id, len, c0, cls, k, num, rfl, h1, h2, _⟩ := derDoc_parts H
  obtain ⟨id', len', num', rest, rfl, h3, h4, _, h5⟩ := framed_parts H'
  simp only [List.append_assoc] at he
  obtain ⟨rfl, _, _, _, he⟩ := identOctets_unique h1.1 h3 he
  obtain ⟨rfl, hl, he⟩ := lenOctets_unique h2.1 h4 he
  obtain ⟨rfl, hl'⟩ := h5 (by rw [← hl]; simp)
  rw [← hl] at hl'
  simp only [Length.definite.injEq] at hl'
  obtain ⟨rfl, rfl⟩ := List.append_inj he hl'
  exact ⟨rfl, rfl⟩

theorem derDoc_list_unique {P : Class → Nat → Bytes → Prop} {d : Nat} : ∀ {es fs : List Bytes},
    (∀ e ∈ es, DerDoc P d e) → (∀ f ∈ fs, ∃ h c, Framed 50 f h c) → es.flatten = fs.flatten → es = fs
  | [], [], _, _, _ => rfl
  | [], f :: fs, _, h2, e => by
    obtain ⟨h, c, hf⟩ := h2 f (by simp)
    have := framed_nonempty hf
    simp only [List.flatten_nil, List.flatten_cons] at e
    rw [(List.append_eq_nil_iff.1 e.symm).1] at this
    simp at this
  | e :: es, [], h1, _, h => by
    obtain ⟨id, len, c, cls, k, num, rfl, h2, _⟩ := derDoc_parts (h1 e (by simp))
    have := (identOctets_lt h2.1).1
    simp only [List.flatten_nil, List.flatten_cons, List.append_assoc] at h
    rw [(List.append_eq_nil_iff.1 h).1] at this
    simp at this
  | e :: es, f :: fs, h1, h2, h => by
    obtain ⟨h', c, hf⟩ := h2 f (by simp)
    obtain ⟨rfl, h5⟩ := derDoc_framed_unique (r := es.flatten) (r' := fs.flatten) (h1 e (by simp)) hf (by simpa using h)
    have h3 : ∀ x ∈ es, DerDoc P d x := fun x hx => h1 x (List.mem_cons_of_mem _ hx)
    have h4 : ∀ f ∈ fs, ∃ h c, Framed 50 f h c := fun f hf => h2 f (List.mem_cons_of_mem _ hf)
    rw [derDoc_list_unique h3 h4 h5]

/-- Undue contents are not DER. -/
theorem undue_prim {o : Bool} {num : Nat} {c : Bytes} (h : Undue o num false c) : ¬ PrimContents num c := by
  intro p
  cases h with
  | endOfContents h => subst h; exact p
  | constructed h => cases h
  | primitive _ h =>
    simp only [List.mem_cons, List.not_mem_nil, or_false] at h
    rcases h with rfl | rfl | rfl <;> exact p
  | boolean b _ h1 h2 h3 h4 =>
    subst h1 h2
    rcases p with p | p <;> cases p <;> contradiction
  | integerEmpty _ h1 h2 => subst h1; exact p.1 h2
  | integerZeroes _ h1 h2 => subst h1; exact p.2.1 h2
  | integerOnes h1 h2 => subst h1; exact p.2.2 h2
  | bitsUnused u s _ h1 h2 h3 =>
    subst h1 h2
    obtain ⟨u', s', e, h4, _⟩ := p
    cases e
    omega
  | bitsNotZero u s _ h1 h2 h3 =>
    subst h1 h2
    obtain ⟨u', s', e, _, _, h4⟩ := p
    cases e
    exact absurd (h4 _ h3) (by simp)
  | bitsNone u h1 h2 h3 =>
    subst h1 h2
    obtain ⟨u', s', e, _, h4, _⟩ := p
    cases e
    exact h3 (h4 rfl)
  | null h1 h2 => subst h1; exact h2 p
  | oid h1 h2 => rcases h1 with rfl | rfl <;> exact h2 p
  | enumerated h1 h2 => subst h1; exact h2 p
  | utcTime h1 h2 => subst h1; exact h2 p
  | generalizedTime h1 h2 => subst h1; exact h2 p
  | delete h1 h2 =>
    subst h1
    have := (p _ h2).2
    revert this
    decide
  | universal h1 h2 => subst h1; exact h2 p
  | bmp h1 h2 =>
    subst h1
    obtain ⟨cs, h3, h4⟩ := p
    exact h2 cs h3 h4

theorem derDoc_no_fault {P : Class → Nat → Bytes → Prop} {o : Bool} {e : Bytes} (H : Fault o e) :
    ∀ d, ¬ DerDoc P d e := by
  induction H with
  | ident o id id' rest cls k num h1 h2 h3 =>
    intro d D
    obtain ⟨id0, len, c, cls0, k0, num0, e, m, _, _⟩ := derDoc_parts D
    obtain ⟨rfl, rfl, rfl, rfl, _⟩ := identOctets_unique h1 m.1 e
    have := m.2 _ h2
    omega
  | length o id len len' rest cls k num n h1 h2 h3 h4 =>
    intro d D
    obtain ⟨id0, len0, c, cls0, k0, num0, e, m, ml, _⟩ := derDoc_parts D
    obtain ⟨rfl, rfl, rfl, rfl, e⟩ := identOctets_unique h1 m.1 e
    obtain ⟨rfl, hl, _⟩ := lenOctets_unique h2 ml.1 e
    rw [hl] at h3
    have := ml.2 _ h3
    omega
  | indefinite id rest cls k num h1 =>
    intro d D
    obtain ⟨id0, len0, c, cls0, k0, num0, e, m, ml, _⟩ := derDoc_parts D
    obtain ⟨rfl, rfl, rfl, rfl, e⟩ := identOctets_unique h1 m.1 e
    obtain ⟨_, hl, _⟩ := lenOctets_unique (len := [0x80]) (r := rest) .indefinite ml.1 e
    cases hl
  | contents o id len c k num h1 h2 h3 =>
    intro d D
    obtain ⟨id0, len0, c0, cls0, k0, num0, e, m, ml, hp⟩ := derDoc_parts D
    obtain ⟨rfl, rfl, rfl, rfl, e⟩ := identOctets_unique h1 m.1 e
    obtain ⟨rfl, hl, rfl⟩ := lenOctets_unique h2 ml.1 e
    rcases hp with ⟨rfl, hp⟩ | ⟨rfl, hp⟩ | ⟨rfl, _, hp, _⟩
    · exact undue_prim h3 (hp rfl)
    · have hp := hp.resolve_left (by simp)
      cases h3 with
      | constructed _ h => simp only [List.mem_cons, List.not_mem_nil, or_false] at h; omega
      | primitive h => cases h
      | _ => omega
    · cases h3 with
      | constructed _ h => simp only [List.mem_cons, List.not_mem_nil, or_false] at h; omega
      | primitive h => cases h
      | _ => omega
  | member o id len es e num h1 h2 h3 h4 h5 _ ih =>
    intro d D
    obtain ⟨id0, len0, c0, cls0, k0, num0, e, m, ml, hp⟩ := derDoc_parts D
    obtain ⟨rfl, rfl, rfl, rfl, e⟩ := identOctets_unique h1 m.1 e
    obtain ⟨rfl, hl, rfl⟩ := lenOctets_unique h3 ml.1 e
    rcases hp with ⟨hk, _⟩ | ⟨_, hp⟩ | ⟨_, _, _, fs, d', hf, hd⟩
    · cases hk
    · have hp := hp.resolve_left (by simp)
      omega
    · rw [← derDoc_list_unique hd h4 hf.symm] at h5
      exact ih d' (hd _ h5)

/-- Contents that are read and not undue are DER. -/
theorem leaf_due {D : Deps} {o : Bool} {num : Nat} {h : Header} {c : Bytes} {x : Content} (hx : Leaf D h c x)
    (hu : h.cls = .universal) (ht : h.tag = num % 2 ^ 32) (hr : o = true → DerRules h.tag c)
    (hn : ¬ Undue o num h.constructed c) :
    (h.constructed = false ∧ PrimContents num c) ∨ (h.constructed = true ∧ (num = 8 ∨ num = 11 ∨ num = 29)) := by
  by_cases hbig : 31 ≤ num
  · obtain ⟨m, rfl⟩ : ∃ m, num = m + 31 := ⟨num - 31, by omega⟩
    cases hk : h.constructed with
    | false => exact .inl ⟨rfl, trivial⟩
    | true =>
      refine (hn (.constructed hk ?_)).elim
      simp only [List.mem_cons, List.not_mem_nil, or_false]
      omega
  have ht : h.tag = num := by omega
  subst ht
  cases hk : h.constructed with
  | true =>
    refine .inr ⟨rfl, ?_⟩
    have h1 : ¬ (h.tag ∉ [8, 11, 16, 17, 29]) := fun h1 => hn (.constructed hk h1)
    have h2 : h.tag ≠ 16 ∧ h.tag ≠ 17 := by
      cases x with
      | str k s => obtain ⟨_, h, _⟩ := hx; rw [h]; cases k <;> decide
      | unknown a =>
        obtain ⟨_, h | h | h⟩ := hx
        · exact absurd hu h
        · simp only [List.mem_cons, List.not_mem_nil, or_false] at h; omega
        · omega
      | _ => first | exact hx.elim | (have h := hx.2.1; omega) | (have h := hx.2; omega)
    simp only [List.mem_cons, List.not_mem_nil, or_false, Classical.not_not] at h1
    omega
  | false =>
    refine .inl ⟨rfl, ?_⟩
    rw [hk] at hn
    have bool : ∀ b : Bool, b = true ∨ b = false := by decide
    cases x with
    | endOfContent => exact (hn (.endOfContents hx.2)).elim
    | boolean v =>
      obtain ⟨_, t, _, b, rfl, _⟩ := hx
      rw [t]
      by_cases h0 : b = 0x00
      · exact .inl (by rw [h0])
      by_cases h1 : b = 0xff
      · exact .inr (by rw [h1])
      rcases bool o with ho | ho
      · exact (hr ho).bool t
      · exact (hn (.boolean b ho t rfl h0 h1)).elim
    | integer s =>
      obtain ⟨_, t, rfl⟩ := hx
      rw [t]
      refine ⟨fun h => ?_, fun h => ?_, fun h => hn (.integerOnes t h)⟩ <;> rcases bool o with ho | ho
      · exact ((hr ho).int t).1 h
      · exact hn (.integerEmpty ho t h)
      · exact ((hr ho).int t).2 h
      · exact hn (.integerZeroes ho t h)
    | bitString u s =>
      obtain ⟨_, t, _, rfl⟩ := hx
      rw [t]
      refine ⟨u, s, rfl, ?_, ?_, ?_⟩
      · rcases bool o with ho | ho
        · exact ((hr ho).bits t u s rfl).1
        · exact Nat.le_of_not_lt fun h => hn (.bitsUnused u s ho t rfl h)
      · rintro rfl
        exact Classical.byContradiction fun h => hn (.bitsNone u t rfl h)
      · intro b hb
        rcases bool o with ho | ho
        · exact ((hr ho).bits t u s rfl).2 b hb
        · cases b with
          | false => rfl
          | true => exact (hn (.bitsNotZero u s ho t rfl hb)).elim
    | octetString s => obtain ⟨_, t, _⟩ := hx; rw [t]; trivial
    | null =>
      obtain ⟨_, t⟩ := hx
      rw [t]
      exact Classical.byContradiction fun h => hn (.null t h)
    | oid s =>
      obtain ⟨_, t, _⟩ := hx
      rw [t]
      exact Classical.byContradiction fun h => hn (.oid (.inl t) h)
    | relativeOid s =>
      obtain ⟨_, t, _⟩ := hx
      rw [t]
      exact Classical.byContradiction fun h => hn (.oid (.inr t) h)
    | enum n =>
      obtain ⟨_, t, _⟩ := hx
      rw [t]
      exact Classical.byContradiction fun h => hn (.enumerated t h)
    | utcTime n =>
      obtain ⟨_, t, _⟩ := hx
      rw [t]
      exact Classical.byContradiction fun h => hn (.utcTime t h)
    | generalizedTime n =>
      obtain ⟨_, t, _⟩ := hx
      rw [t]
      exact Classical.byContradiction fun h => hn (.generalizedTime t h)
    | universalString s =>
      obtain ⟨_, t, _⟩ := hx
      rw [t]
      exact Classical.byContradiction fun h => hn (.universal t h)
    | bmpString s =>
      obtain ⟨_, t, _⟩ := hx
      rw [t]
      exact Classical.byContradiction fun h => hn (.bmp t fun cs h1 h2 => h ⟨cs, h1, h2⟩)
    | str k s =>
      obtain ⟨_, t, _, rfl, hc, hu8⟩ := hx
      rw [t]
      cases k with
      | numeric => exact hc
      | printable => exact hc
      | ia5 => exact hc
      | utf8 => exact hu8
      | visible =>
        intro b hb
        have h1 : 32 ≤ b.toNat ∧ b.toNat ≤ 127 := hc b hb
        refine ⟨h1.1, Classical.byContradiction fun h => hn (.delete t ?_)⟩
        rwa [show (0x7f : UInt8) = b from UInt8.toNat.inj (by simp; omega)]
      | _ => trivial
    | unknown a =>
      obtain ⟨_, h1 | h1 | h1⟩ := hx
      · exact absurd hu h1
      · have h2 : ¬ h.tag ∈ [8, 11, 29] := fun h2 => hn (.primitive rfl h2)
        simp only [List.mem_cons, List.not_mem_nil, or_false] at h1 h2
        have h3 : h.tag = 9 ∨ h.tag = 14 ∨ h.tag = 15 := by omega
        rcases h3 with h3 | h3 | h3 <;> rw [h3] <;> trivial
      · omega
    | _ => exact hx.elim

theorem minIdent_of_no_fault {o : Bool} {id rest : Bytes} {cls : Class} {k : Bool} {num : Nat}
    (h : IdentOctets id cls k num) (hn : ¬ Fault o (id ++ rest)) : MinIdent id cls k num :=
  ⟨h, fun id' h' => Nat.le_of_not_lt fun hl => hn (.ident o id id' rest cls k num h h' hl)⟩

theorem minLen_of_no_fault {o : Bool} {id len rest : Bytes} {cls : Class} {k : Bool} {num n : Nat}
    (h : IdentOctets id cls k num) (hl : LenOctets len (.definite n)) (hn : ¬ Fault o (id ++ (len ++ rest))) :
    MinLen len n :=
  ⟨hl, fun len' h' => Nat.le_of_not_lt fun hlt => hn (.length o id len len' rest cls k num n h hl h' hlt)⟩

theorem derDoc_leaf {D : Deps} {o : Bool} {d num : Nat} {h : Header} {id len c : Bytes} {x : Content} (hx : Leaf D h c x)
    (hi : IdentOctets id h.cls h.constructed num) (hl : LenOctets len (.definite c.length)) (ht : h.tag = num % 2 ^ 32)
    (hr : o = true → h.cls = .universal → DerRules h.tag c) (hn : ¬ Fault o (id ++ (len ++ c))) :
    DerDoc (fun _ _ _ => True) (d + 1) (id ++ (len ++ c)) := by
  have h1 := minIdent_of_no_fault hi hn
  have h2 := minLen_of_no_fault hi hl hn
  rw [← List.append_assoc]
  by_cases hu : h.cls = .universal
  · rw [hu] at h1 hi
    rcases leaf_due hx hu ht (fun ho => hr ho hu) (fun h => hn (.contents o id len c _ num hi hl h)) with ⟨hk, hp⟩ | ⟨hk, hp⟩
    · rw [hk] at h1
      exact .primitive d id len c _ num h1 h2 (fun _ => hp) trivial
    · rw [hk] at h1
      exact .constructed d id len c _ num h1 h2 (.inr hp) trivial
  · cases hk : h.constructed with
    | false => rw [hk] at h1; exact .primitive d id len c _ num h1 h2 (fun h => absurd h hu) trivial
    | true => rw [hk] at h1; exact .constructed d id len c _ num h1 h2 (.inl hu) trivial

theorem derDoc_list {o : Bool} {d num : Nat} {id len : Bytes} {es : List Bytes}
    (hi : IdentOctets id .universal true num) (hl : LenOctets len (.definite es.flatten.length))
    (ht : num % 2 ^ 32 = 16 ∨ num % 2 ^ 32 = 17) (hF : ∀ x ∈ es, ∃ h c, Framed 50 x h c)
    (hes : ∀ e ∈ es, ¬ Fault false e → DerDoc (fun _ _ _ => True) d e) (hn : ¬ Fault o (id ++ (len ++ es.flatten))) :
    DerDoc (fun _ _ _ => True) (d + 1) (id ++ (len ++ es.flatten)) := by
  have h1 := minIdent_of_no_fault hi hn
  have h2 := minLen_of_no_fault hi hl hn
  rw [← List.append_assoc]
  have h3 : num = 16 ∨ num = 17 := by
    refine Classical.byContradiction fun h3 => hn (.contents o id len _ true num hi hl (.constructed rfl ?_))
    simp only [List.mem_cons, List.not_mem_nil, or_false]
    omega
  exact .list d id len es num h1 h3 h2 fun e he => hes e he fun hf => hn (.member o id len es e num hi h3 hl hF he hf)

theorem items_flatten (items : List Item) : (items.map Item.bytes).flatten = items.flatMap Item.bytes := by
  rw [List.flatMap_def]

theorem denotes_derDoc {D : Deps} {d : Nat} {h : Header} {c : Bytes} {x : Content} (H : Denotes D d h c x) :
    ∀ e, Framed 50 e h c → ¬ Fault false e → DerDoc (fun _ _ _ => True) d e := by
  have definite : ∀ {e : Bytes} {h : Header} {c : Bytes}, Framed 50 e h c → ¬ Fault false e →
      ∃ id len num, e = id ++ (len ++ c) ∧ IdentOctets id h.cls h.constructed num ∧
        LenOctets len (.definite c.length) ∧ h.tag = num % 2 ^ 32 := by
    intro e h c hF hn
    obtain ⟨id, len, num, rest, rfl, h1, h2, h3, h4⟩ := framed_parts hF
    have hd : h.length ≠ .indefinite := by
      intro hl
      rw [hl] at h2
      cases h2
      exact hn (.indefinite id rest _ _ num h1)
    obtain ⟨rfl, hl⟩ := h4 hd
    rw [hl] at h2
    exact ⟨id, len, num, rfl, h1, h2, h3⟩
  induction H with
  | leaf d h c x hx =>
    intro e hF hn
    obtain ⟨id, len, num, rfl, h1, h2, h3⟩ := definite hF hn
    exact derDoc_leaf hx h1 h2 h3 (by simp) hn
  | sequence d h items hc ht hk hI _ ih | set d h items hc ht hk hI _ ih =>
    intro e hF hn
    obtain ⟨id, len, num, rfl, h1, h2, h3⟩ := definite hF hn
    rw [hc, hk] at h1
    rw [← items_flatten] at h2 hn ⊢
    refine derDoc_list h1 h2 (by omega) ?_ ?_ hn
    · intro x hx
      obtain ⟨it, hit, rfl⟩ := List.mem_map.1 hx
      exact ⟨_, _, hI it hit⟩
    · intro x hx hf
      obtain ⟨it, hit, rfl⟩ := List.mem_map.1 hx
      exact ih it hit _ (hI it hit) hf

/-! ## C106 -/

/-- C106 in full: what `parse_der` accepts is DER. -/
def C106Statement : Prop :=
  ∀ (D : Deps) (d : Nat) (e rest : Bytes) (o : BerObject), parseDerRecursive D d (e ++ rest) = .ok (rest, o) →
    DerDoc (fun _ _ _ => True) d e

/-- C106, what holds: an accepted element is DER exactly if it has none of the faults listed in `Spec.Fault`.  Missing:
elements with one of them (see the counterexamples). -/
theorem C106_faults_partial (D : Deps) (hT : TimesKnown D) (d : Nat) (e rest : Bytes) (o : BerObject)
    (h : parseDerRecursive D (d + 1) (e ++ rest) = .ok (rest, o)) :
    DerDoc (fun _ _ _ => True) (d + 1) e ↔ ¬ Fault true e := by
  refine ⟨fun h1 h2 => derDoc_no_fault h2 _ h1, fun hn => ?_⟩
  obtain ⟨hb, c, he, H, hl, _, hx⟩ := (C63_parse_der_exact D hT d _ rest o).1 h
  obtain rfl := List.append_cancel_right he
  obtain ⟨id, len, num, rfl, h1, h2, h3, _, _⟩ := H.octets
  rw [hl] at h2
  rw [List.append_assoc] at hn ⊢
  rcases hx with ⟨hu, hx⟩ | ⟨hu, hr, hx⟩
  · have hleaf : Leaf D o.header c (.unknown ⟨o.header, c⟩) := ⟨rfl, .inl hu⟩
    exact derDoc_leaf hleaf h1 h2 h3 (fun _ h => absurd h hu) hn
  · rw [hu] at h1
    generalize hh : Header.new .universal o.header.constructed o.header.tag o.header.length = h' at hx
    generalize hc' : o.content = x at hx
    have hk : o.header.constructed = h'.constructed := by rw [← hh]; rfl
    have htag : o.header.tag = h'.tag := by rw [← hh]; rfl
    have hcls : h'.cls = .universal := by rw [← hh]; rfl
    rw [htag] at h3 hr
    cases hx with
    | leaf _ _ _ _ hx =>
      rw [hk, ← hcls] at h1
      exact derDoc_leaf hx h1 h2 h3 (fun _ _ => hr) hn
    | sequence _ _ items _ ht hk' hI hD | set _ _ items _ ht hk' hI hD =>
      rw [hk, hk'] at h1
      rw [← items_flatten] at h2 hn ⊢
      refine derDoc_list h1 h2 (by omega) ?_ ?_ hn
      · intro x hx
        obtain ⟨it, hit, rfl⟩ := List.mem_map.1 hx
        exact ⟨_, _, hI it hit⟩
      · intro x hx hf
        obtain ⟨it, hit, rfl⟩ := List.mem_map.1 hx
        exact denotes_derDoc (hD it hit) _ (hI it hit) hf

example := C106_faults_partial Tests.D0 (fun _ _ _ => by simp [Tests.D0]) 49 [0x30, 0x03, 0x01, 0x01, 0x05] [9] _ rfl

/-- C106 for `parse_ber`: an accepted element is DER exactly if it has none of the faults. -/
theorem C106_ber_faults (D : Deps) (d : Nat) (e rest : Bytes) (o : BerObject)
    (h : parseBerRecursive D d (e ++ rest) = .ok (rest, o)) : DerDoc (fun _ _ _ => True) d e ↔ ¬ Fault false e := by
  refine ⟨fun h1 h2 => derDoc_no_fault h2 _ h1, fun hn => ?_⟩
  obtain ⟨e', c, he, hF, hD⟩ := parseBerRecursive_iff.1 h
  obtain rfl := List.append_cancel_right he
  exact denotes_derDoc hD _ hF hn

example := C106_ber_faults Tests.D0 50 [0x30, 0x80, 0x01, 0x01, 0x05, 0, 0] [9] _ rfl

theorem fault_contents {b l : UInt8} (o : Bool) (c : Bytes) (hb : b.toNat % 32 ≠ 31) (hc : classOf b = .universal)
    (hl : l.toNat < 128) (hn : c.length = l.toNat) (h : Undue o (b.toNat % 32) (constructedBit b) c) :
    Fault o (b :: l :: c) := by
  have hi := IdentOctets.low b hb
  rw [hc] at hi
  exact .contents o [b] [l] c _ _ hi (by rw [hn]; exact .short l hl) h

/-- SEQUENCE of one member. -/
theorem fault_member {l : UInt8} (o : Bool) (e : Bytes) (hl : l.toNat < 128) (hn : e.length = l.toNat)
    (hF : ∃ h c, Framed 50 e h c) (h : Fault false e) : Fault o (0x30 :: l :: e) := by
  have := Fault.member o [0x30] [l] [e] e 16 (IdentOctets.low 0x30 (by decide)) (.inl rfl)
    (by simp only [List.flatten_cons, List.flatten_nil, List.append_nil, hn]; exact .short l hl)
    (by simpa using hF) (by simp) h
  simpa using this

theorem accepted_framed {D : Deps} {e : Bytes} (h : ∃ o, parseBer D e = .ok ([], o)) : ∃ h c, Framed 50 e h c := by
  obtain ⟨o, h⟩ := h
  obtain ⟨e', c, he, hF, _⟩ := parseBerRecursive_iff.1 h
  rw [List.append_nil] at he
  exact ⟨_, _, he ▸ hF⟩

/-- C106 is false: every fault of the outermost element is accepted, those of times apart, which depend on the date
library. -/
theorem C106_outer_counterexample (D : Deps) : ∀ e ∈ ([
    [0x1f, 0x02, 0x01, 0x05],           -- INTEGER 5 with two identifier octets
    [0x02, 0x81, 0x01, 0x05],           -- with two length octets
    [0x00, 0x00],                       -- end-of-contents
    [0x22, 0x01, 0x05],                 -- INTEGER, constructed
    [0x08, 0x00],                       -- EXTERNAL, primitive
    [0x02, 0x02, 0xff, 0xff],           -- INTEGER -1 with two octets
    [0x03, 0x01, 0x07],                 -- BIT STRING without bits, seven of them unused
    [0x05, 0x01, 0x00],                 -- NULL with contents
    [0x06, 0x00],                       -- OBJECT IDENTIFIER without contents
    [0x06, 0x01, 0x80],                 -- cut subidentifier
    [0x0d, 0x01, 0x80],                 -- RELATIVE-OID
    [0x0a, 0x00],                       -- ENUMERATED without contents
    [0x1a, 0x01, 0x7f],                 -- VisibleString with DELETE
    [0x1c, 0x01, 0x41],                 -- UniversalString of one octet
    [0x1e, 0x04, 0xd8, 0x00, 0xdc, 0x00] -- BMPString with U+10000
    ] : List Bytes), (∃ o, parseDer D e = .ok ([], o)) ∧ Fault true e ∧ ∀ d, ¬ DerDoc (fun _ _ _ => True) d e := by
  have hoid : ∀ c : Bytes, (∀ b ∈ c, 128 ≤ b.toNat) → ¬ OidContents c := by
    rintro c hc ⟨ss, hs, rfl, h⟩
    cases ss with
    | nil => exact hs rfl
    | cons s ss =>
      obtain ⟨ms, l, rfl, _, hl, _⟩ := h s (by simp)
      have := hc l (by simp)
      omega
  suffices h : ∀ e ∈ _, (∃ o, parseDer D e = .ok ([], o)) ∧ Fault true e from
    fun e he => ⟨(h e he).1, (h e he).2, derDoc_no_fault (h e he).2⟩
  simp only [List.forall_mem_cons, List.not_mem_nil, false_imp_iff, implies_true, and_true]
  refine ⟨⟨⟨_, rfl⟩, ?_⟩, ⟨⟨_, rfl⟩, ?_⟩, ⟨⟨_, rfl⟩, ?_⟩, ⟨⟨_, rfl⟩, ?_⟩, ⟨⟨_, rfl⟩, ?_⟩, ⟨⟨_, rfl⟩, ?_⟩, ⟨⟨_, rfl⟩, ?_⟩,
    ⟨⟨_, rfl⟩, ?_⟩, ⟨⟨_, rfl⟩, ?_⟩, ⟨⟨_, rfl⟩, ?_⟩, ⟨⟨_, rfl⟩, ?_⟩, ⟨⟨_, rfl⟩, ?_⟩, ⟨⟨_, rfl⟩, ?_⟩, ⟨⟨_, rfl⟩, ?_⟩,
    ⟨⟨_, rfl⟩, ?_⟩⟩
  · exact .ident true [0x1f, 0x02] [0x02] [0x01, 0x05] _ _ _ (.high 0x1f [] 0x02 (by decide) (by simp) (by decide))
      (.low 0x02 (by decide)) (by decide)
  · exact .length true [0x02] [0x81, 0x01] [0x01] [0x05] _ _ _ 1 (.low 0x02 (by decide))
      (.long 0x81 [0x01] (by decide) (by decide) rfl) (.short 0x01 (by decide)) (by decide)
  · exact fault_contents true _ (by decide) rfl (by decide) rfl (.endOfContents rfl)
  · exact fault_contents true _ (by decide) rfl (by decide) rfl (.constructed rfl (by decide))
  · exact fault_contents true _ (by decide) rfl (by decide) rfl (.primitive rfl (by decide))
  · exact fault_contents true _ (by decide) rfl (by decide) rfl (.integerOnes rfl (by decide))
  · exact fault_contents true _ (by decide) rfl (by decide) rfl (.bitsNone 7 rfl rfl (by decide))
  · exact fault_contents true _ (by decide) rfl (by decide) rfl (.null rfl (by decide))
  · exact fault_contents true _ (by decide) rfl (by decide) rfl (.oid (.inl rfl) (hoid _ (by simp)))
  · exact fault_contents true _ (by decide) rfl (by decide) rfl (.oid (.inl rfl) (hoid _ (by simp)))
  · exact fault_contents true _ (by decide) rfl (by decide) rfl (.oid (.inr rfl) (hoid _ (by simp)))
  · exact fault_contents true _ (by decide) rfl (by decide) rfl (.enumerated rfl fun h => h.1 rfl)
  · exact fault_contents true _ (by decide) rfl (by decide) rfl (.delete rfl (by decide))
  · exact fault_contents true _ (by decide) rfl (by decide) rfl (.universal rfl (by decide))
  · refine fault_contents true _ (by decide) rfl (by decide) rfl (.bmp rfl ?_)
    intro cs hcs h
    cases cs with
    | nil => simp at h
    | cons x cs =>
      obtain ⟨h1, h2⟩ := hcs x (by simp)
      rw [List.flatMap_cons, utf16Enc, if_pos h2] at h
      simp only [List.cons_append, List.cons.injEq] at h
      have h3 : (0xd8 : UInt8).toNat = _ := congrArg UInt8.toNat h.1
      simp only [UInt8.toNat_ofNat'] at h3
      have h4 : (0xd8 : UInt8).toNat = 216 := rfl
      rw [IsScalar] at h1
      omega

/-- C106 is false: these faults are accepted inside a SEQUENCE, and refused outside. -/
theorem C106_inner_counterexample (D : Deps) : ∀ e ∈ ([
    [0x01, 0x01, 0x05],                 -- BOOLEAN
    [0x02, 0x00],                       -- INTEGER without contents
    [0x02, 0x02, 0x00, 0x01],           -- INTEGER 1 with two octets
    [0x03, 0x02, 0x08, 0x00],           -- BIT STRING with eight unused bits
    [0x03, 0x02, 0x01, 0x01],           -- with an unused bit that is one
    [0x30, 0x80, 0x00, 0x00]            -- indefinite length
    ] : List Bytes), (∀ o, parseDer D e ≠ .ok ([], o)) ∧ (∃ o, parseDer D (0x30 :: UInt8.ofNat e.length :: e) = .ok ([], o)) ∧
      Fault true (0x30 :: UInt8.ofNat e.length :: e) := by
  have hno : ∀ {e : Bytes} {x : IRes BerError BerObject}, parseDer D e = x → (∀ o, x ≠ .ok ([], o)) →
      ∀ o, parseDer D e ≠ .ok ([], o) := fun h hx o => h ▸ hx o
  rw [List.forall_mem_cons, List.forall_mem_cons, List.forall_mem_cons, List.forall_mem_cons, List.forall_mem_cons,
    List.forall_mem_cons]
  refine ⟨⟨hno rfl (fun _ h => by cases h), ⟨_, rfl⟩, ?_⟩, ⟨hno rfl (fun _ h => by cases h), ⟨_, rfl⟩, ?_⟩,
    ⟨hno rfl (fun _ h => by cases h), ⟨_, rfl⟩, ?_⟩, ⟨hno rfl (fun _ h => by cases h), ⟨_, rfl⟩, ?_⟩,
    ⟨hno rfl (fun _ h => by cases h), ⟨_, rfl⟩, ?_⟩, ⟨hno rfl (fun _ h => by cases h), ⟨_, rfl⟩, ?_⟩, by simp⟩ <;>
    refine fault_member true _ (by decide) rfl (accepted_framed (D := D) ⟨_, rfl⟩) ?_
  · exact fault_contents false _ (by decide) rfl (by decide) rfl (.boolean 5 rfl rfl rfl (by decide) (by decide))
  · exact fault_contents false _ (by decide) rfl (by decide) rfl (.integerEmpty rfl rfl rfl)
  · exact fault_contents false _ (by decide) rfl (by decide) rfl (.integerZeroes rfl rfl (by decide))
  · exact fault_contents false _ (by decide) rfl (by decide) rfl (.bitsUnused 8 [0] rfl rfl rfl (by decide))
  · exact fault_contents false _ (by decide) rfl (by decide) rfl (.bitsNotZero 1 [1] rfl rfl rfl (by decide))
  · exact .indefinite [0x30] [0x00, 0x00] _ _ _ (.low 0x30 (by decide))

/-- The hypotheses of C106 can be met: a SEQUENCE of an INTEGER is accepted, is DER, and so has no faults. -/
example : ¬ Fault true [0x30, 0x03, 0x02, 0x01, 0x05] :=
  fun h => derDoc_no_fault (P := fun _ _ _ => True) h 2 (.list 1 [0x30] [0x03] [[0x02, 0x01, 0x05]] 16 (minIdent_low 0x30 (by decide)) (.inl rfl)
    (minLen_short 3 (by decide)) (by
      simp only [List.mem_singleton, forall_eq]
      exact .primitive 0 [0x02] [0x01] [0x05] _ _ (minIdent_low 0x02 (by decide)) (minLen_short 1 (by decide))
        (fun _ => by refine ⟨by decide, by decide, by decide⟩) trivial))

/-- C106 as stated is false. -/
theorem C106_full_counterexample : ¬ C106Statement := fun h => by
  obtain ⟨⟨o, h1⟩, _, h2⟩ := C106_outer_counterexample Tests.D0 [0x05, 0x01, 0x00] (by simp)
  exact h2 _ (h Tests.D0 50 [0x05, 0x01, 0x00] [] o h1)

end Verif
