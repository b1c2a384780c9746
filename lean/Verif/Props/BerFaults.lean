import Verif.Props.ValidBer
import Verif.Props.Forms
/-!
# Property C122: what parse_ber accepts and is not BER

The converse of C121.
-/
namespace Verif
open Outcome Spec

/-! ## Specification -/

namespace Spec

/-- Universal types that have a constructed encoding. -/
def compositeNumbers : List Nat := [3, 4, 7, 8, 11, 12, 16, 17, 18, 19, 20, 21, 22, 23, 24, 25, 26, 27, 28, 29, 30]

/-- Contents octets `c` of the universal type `num` that are not BER but read by the parser.  `k` says that the encoding is
constructed. -/
inductive BerUndue (num : Nat) (k : Bool) (c : Bytes) : Prop
  /-- End-of-contents octets are not a type. -/
  | endOfContents : num = 0 → BerUndue num k c
  /-- Constructed encodings of types that have none. -/
  | constructed : k = true → num ∉ compositeNumbers → BerUndue num k c
  /-- Primitive encodings of EXTERNAL, EMBEDDED PDV, CHARACTER STRING. -/
  | primitive : k = false → num ∈ [8, 11, 29] → BerUndue num k c
  /-- INTEGER without contents. -/
  | integerEmpty : k = false → num = 2 → c = [] → BerUndue num k c
  /-- INTEGER whose first nine bits are equal. -/
  | integerNine (b : Bool) : k = false → num = 2 → (bitsOf c).take 9 = List.replicate 9 b → BerUndue num k c
  /-- BIT STRING with more than seven unused bits. -/
  | bitsUnused (u : UInt8) (s : Bytes) : k = false → num = 3 → c = u :: s → 7 < u.toNat → BerUndue num k c
  /-- BIT STRING without any bits, of which some are unused. -/
  | bitsNone (u : UInt8) : k = false → num = 3 → c = [u] → u ≠ 0 → BerUndue num k c
  /-- NULL with contents. -/
  | null : k = false → num = 5 → c ≠ [] → BerUndue num k c
  /-- OBJECT IDENTIFIER or RELATIVE-OID that is not a list of subidentifiers. -/
  | oid : k = false → num = 6 ∨ num = 13 → ¬ OidContents c → BerUndue num k c
  /-- ENUMERATED that is empty or not minimal. -/
  | enumerated : k = false → num = 10 → ¬ MinInt c → BerUndue num k c
  /-- Times in other forms, as far as the date library knows them. -/
  | utcTime : k = false → num = 23 → ¬ BerUtc c → BerUndue num k c
  | generalizedTime : k = false → num = 24 → ¬ BerGeneralized c → BerUndue num k c
  /-- VisibleString with the control character DELETE. -/
  | delete : k = false → num = 26 → 0x7f ∈ c → BerUndue num k c
  /-- UniversalString that is not a number of four-octet characters. -/
  | universal : k = false → num = 28 → c.length % 4 ≠ 0 → BerUndue num k c
  /-- BMPString with characters outside the Basic Multilingual Plane. -/
  | bmp : k = false → num = 30 → (∀ cs : List Nat, (∀ x ∈ cs, IsScalar x ∧ x < 0x10000) → c ≠ cs.flatMap utf16Enc) →
      BerUndue num k c

/-- Elements that are not BER: identifier octets that could be shorter, undue contents, an indefinite length of a type that
has no constructed encoding, or that is ended by anything but `00 00`, at any depth, or a member of a SEQUENCE or SET
that is not BER. -/
inductive BerFault : Bytes → Prop
  | ident (id id' rest : Bytes) (cls : Class) (k : Bool) (num : Nat) : IdentOctets id cls k num →
      IdentOctets id' cls k num → id'.length < id.length → BerFault (id ++ rest)
  | contents (id len c : Bytes) (k : Bool) (num : Nat) : IdentOctets id .universal k num →
      LenOctets len (.definite c.length) → BerUndue num k c → BerFault (id ++ (len ++ c))
  | indefinite (id rest : Bytes) (k : Bool) (num : Nat) : IdentOctets id .universal k num → num ∉ compositeNumbers →
      BerFault (id ++ 0x80 :: rest)
  | terminator (n : Nat) (id : Bytes) (es : List Bytes) (t : Bytes) (cls : Class) (k : Bool) (num : Nat) :
      IdentOctets id cls k num → (∀ e ∈ es, Element LooseEoc LooseEoc n e) → LooseEoc t → t ≠ [0, 0] →
      BerFault (id ++ 0x80 :: (es.flatten ++ t))
  | inner (n : Nat) (id : Bytes) (es : List Bytes) (t e : Bytes) (cls : Class) (k : Bool) (num : Nat) :
      IdentOctets id cls k num → cls ≠ .universal ∨ num ≠ 16 ∧ num ≠ 17 →
      (∀ e ∈ es, Element LooseEoc LooseEoc n e) → LooseEoc t → e ∈ es → (∀ m, ¬ Element IsEoc LooseEoc m e) →
      BerFault (id ++ 0x80 :: (es.flatten ++ t))
  | member (id len : Bytes) (es : List Bytes) (e : Bytes) (num : Nat) :
      IdentOctets id .universal true num → num = 16 ∨ num = 17 → LenOctets len (.definite es.flatten.length) →
      (∀ x ∈ es, ∃ h c, Framed 50 x h c) → e ∈ es → BerFault e → BerFault (id ++ (len ++ es.flatten))
  | memberIndefinite (n : Nat) (id : Bytes) (es : List Bytes) (t e : Bytes) (num : Nat) :
      IdentOctets id .universal true num → num = 16 ∨ num = 17 → (∀ e ∈ es, Element LooseEoc LooseEoc n e) →
      LooseEoc t → e ∈ es → BerFault e → BerFault (id ++ 0x80 :: (es.flatten ++ t))

end Spec

/-! ## Lemmas -/

/-- Byte strings that end where their lengths say. -/
inductive Ends : Bytes → Prop
  | definite (id len c : Bytes) (cls : Class) (k : Bool) (num : Nat) : IdentOctets id cls k num →
      LenOctets len (.definite c.length) → Ends (id ++ (len ++ c))
  | indefinite (id : Bytes) (es : List Bytes) (cls : Class) (k : Bool) (num : Nat) : IdentOctets id cls k num →
      (∀ e ∈ es, Ends e) → (∀ e ∈ es, ¬ LooseEoc e) → Ends (id ++ 0x80 :: (es.flatten ++ [0, 0]))

theorem element_framed' {n : Nat} {e : Bytes} (H : Element LooseEoc LooseEoc n e) : ∃ m h c, Framed m e h c := by
  cases H with
  | definite n l hb c h h1 h2 h3 _ => exact ⟨0, h, c, .definite hb c h h1 (by rw [h2, h3])⟩
  | indefinite n hb es t h h1 h2 h3 h4 => exact ⟨n + 2, h, _, .indefinite n hb es t h rfl h1 h2 h3 h4⟩

theorem element_not_loose {T : Bytes → Prop} {n : Nat} {e : Bytes} (H : Element T LooseEoc n e) : ¬ LooseEoc e := by
  cases H with
  | definite n l hb c h _ _ _ h4 => exact h4
  | indefinite n hb es t h h1 h2 _ _ =>
    rintro ⟨h', H', _, hl⟩
    obtain ⟨_, rfl⟩ := berHeader_unique h1 H' (x := es.flatten ++ t) (x' := []) (by simp)
    rw [h2] at hl
    cases hl

theorem element_ends {n : Nat} {e : Bytes} (H : Element IsEoc LooseEoc n e) : Ends e := by
  induction H with
  | definite n l hb c h h1 h2 h3 h4 =>
    obtain ⟨id, len, num, rfl, g1, g2, _⟩ := h1.octets
    rw [h2, ← h3] at g2
    rw [List.append_assoc]
    exact .definite id len c _ _ num g1 g2
  | indefinite n hb es t h h1 h2 h3 h4 ih =>
    obtain ⟨id, len, num, rfl, g1, g2, _⟩ := h1.octets
    rw [h2] at g2
    cases g2
    rw [show t = [0, 0] from h4]
    have := Ends.indefinite id es _ _ num g1 ih fun e he => element_not_loose (h3 e he)
    simpa using this

theorem berDoc_ends {P : Class → Bool → Nat → Bytes → Prop} {N d n : Nat} {e : Bytes} (H : BerDoc LooseEoc P N d n e) :
    Ends e := by
  induction H with
  | primitive d n id len c cls num h1 h2 _ _ => exact .definite id len c _ _ _ h1.1 h2
  | constructed d n id len c cls num h1 h2 _ _ => exact .definite id len c _ _ _ h1.1 h2
  | constructedIndefinite d n id es cls num h1 _ _ h4 =>
    exact .indefinite id es _ _ _ h1.1 (fun e he => element_ends (h4 e he)) fun e he => element_not_loose (h4 e he)
  | list d n id len es num h1 _ h3 _ _ => exact .definite id len _ _ _ _ h1.1 h3
  | listIndefinite d n id es num h1 _ _ h4 ih => exact .indefinite id es _ _ _ h1.1 ih h4

/-- One list of elements up to a terminator is the other. -/
theorem ends_list_unique : ∀ {es fs : List Bytes} {t r r' : Bytes} {n : Nat},
    (∀ e ∈ es, ∀ {n : Nat} {f r r' c : Bytes} {h : Header}, Framed n f h c → e ++ r = f ++ r' → e = f ∧ r = r') →
    (∀ e ∈ es, ¬ LooseEoc e) → (∀ f ∈ fs, Element LooseEoc LooseEoc n f) → LooseEoc t →
    es.flatten ++ ([0, 0] ++ r) = fs.flatten ++ (t ++ r') → es = fs ∧ t = [0, 0] ∧ r = r'
  | [], [], t, r, r', n, _, _, _, h4, e => by
    obtain ⟨h, H, _⟩ := h4
    obtain ⟨rfl, _⟩ := berHeader_unique eocHeader H (x := r) (x' := r') (by simpa using e)
    exact ⟨rfl, rfl, by simpa using e⟩
  | [], f :: fs, t, r, r', n, _, _, h3, _, e => by
    have hf := h3 f (by simp)
    exfalso
    cases hf with
    | definite n l hb c h h1 h2 h5 h4 =>
      obtain ⟨rfl, rfl⟩ := berHeader_unique eocHeader h1 (x := r) (x' := c ++ (fs.flatten ++ (t ++ r')))
        (by simpa using e)
      simp only [Length.definite.injEq] at h2
      rw [← h2, List.length_eq_zero_iff] at h5
      subst h5
      exact h4 (looseEoc_of_isEoc _ rfl)
    | indefinite n hb es t' h h1 h2 h3 h4 =>
      obtain ⟨rfl, rfl⟩ := berHeader_unique eocHeader h1 (x := r) (x' := es.flatten ++ t' ++ (fs.flatten ++ (t ++ r')))
        (by simpa using e)
      cases h2
  | e :: es, [], t, r, r', n, h1, h2, _, h4, he => by
    obtain ⟨h, H, _, hl⟩ := id h4
    have hF : Framed 0 (t ++ []) h [] := .definite t [] h H (by simpa using hl)
    rw [List.append_nil] at hF
    obtain ⟨rfl, _⟩ := h1 e (by simp) (r := es.flatten ++ ([0, 0] ++ r)) (r' := r') hF (by simpa using he)
    exact (h2 e (by simp) h4).elim
  | e :: es, f :: fs, t, r, r', n, h1, h2, h3, h4, he => by
    obtain ⟨m, h, c, hF⟩ := element_framed' (h3 f (by simp))
    obtain ⟨rfl, he'⟩ := h1 e (by simp) (r := es.flatten ++ ([0, 0] ++ r)) (r' := fs.flatten ++ (t ++ r')) hF
      (by simpa using he)
    obtain ⟨rfl, g2, g3⟩ := ends_list_unique (es := es) (fs := fs) (fun x hx => h1 x (by simp [hx])) (fun x hx => h2 x (by simp [hx]))
      (fun x hx => h3 x (by simp [hx])) h4 he'
    exact ⟨rfl, g2, g3⟩

theorem ends_unique {e : Bytes} (H : Ends e) : ∀ {n : Nat} {f r r' c : Bytes} {h : Header}, Framed n f h c →
    e ++ r = f ++ r' → e = f ∧ r = r' := by
  induction H with
  | definite id len c cls k num h1 h2 =>
    intro n f r r' c' h hF he
    obtain ⟨id', len', num', rest, rfl, h3, h4, _, h5⟩ := framed_parts hF
    simp only [List.append_assoc] at he
    obtain ⟨rfl, _, _, _, he⟩ := identOctets_unique h1 h3 he
    obtain ⟨rfl, hl, he⟩ := lenOctets_unique h2 h4 he
    obtain ⟨rfl, hl'⟩ := h5 (by rw [← hl]; simp)
    rw [← hl] at hl'
    simp only [Length.definite.injEq] at hl'
    obtain ⟨rfl, rfl⟩ := List.append_inj he hl'
    exact ⟨rfl, rfl⟩
  | indefinite id es cls k num h1 _ h3 ih =>
    intro n f r r' c' h hF he
    cases hF with
    | definite hb c h H hl =>
      obtain ⟨id', len', num', rfl, g1, g2, _⟩ := H.octets
      rw [hl] at g2
      simp only [List.append_assoc] at he
      obtain ⟨rfl, _, _, _, he⟩ := identOctets_unique h1 g1 he
      obtain ⟨_, hl, _⟩ := lenOctets_unique (len := [0x80]) (r := es.flatten ++ ([0, 0] ++ r)) .indefinite g2
        (by simpa using he)
      cases hl
    | indefinite m hb fs t h hn H hl hes ht =>
      obtain ⟨id', len', num', rfl, g1, g2, _⟩ := H.octets
      rw [hl] at g2
      cases g2
      simp only [List.append_assoc] at he
      obtain ⟨rfl, _, _, _, he⟩ := identOctets_unique h1 g1 he
      simp only [List.cons_append, List.nil_append, List.append_assoc, List.cons.injEq, true_and] at he
      obtain ⟨rfl, rfl, rfl⟩ := ends_list_unique ih h3 hes ht (by simpa using he)
      simp

theorem ends_nonempty {e : Bytes} (H : Ends e) : e ≠ [] := by
  cases H with
  | definite id len c cls k num h1 _ =>
    have := (identOctets_lt h1).1
    intro e
    rw [(List.append_eq_nil_iff.1 e).1] at this
    simp at this
  | indefinite => simp

/-- One list of elements is the other. -/
theorem ends_flatten_unique : ∀ {es fs : List Bytes}, (∀ e ∈ es, Ends e) → (∀ f ∈ fs, ∃ h c, Framed 50 f h c) →
    es.flatten = fs.flatten → es = fs
  | [], [], _, _, _ => rfl
  | [], f :: fs, _, h2, e => by
    obtain ⟨h, c, hf⟩ := h2 f (by simp)
    have := framed_nonempty hf
    simp only [List.flatten_nil, List.flatten_cons] at e
    rw [(List.append_eq_nil_iff.1 e.symm).1] at this
    simp at this
  | e :: es, [], h1, _, h => by
    simp only [List.flatten_nil, List.flatten_cons] at h
    exact (ends_nonempty (h1 e (by simp)) (List.append_eq_nil_iff.1 h).1).elim
  | e :: es, f :: fs, h1, h2, h => by
    obtain ⟨h', c, hf⟩ := h2 f (by simp)
    obtain ⟨rfl, h5⟩ := ends_unique (h1 e (by simp)) (r := es.flatten) (r' := fs.flatten) hf (by simpa using h)
    rw [ends_flatten_unique (fun x hx => h1 x (by simp [hx])) (fun x hx => h2 x (by simp [hx])) h5]

theorem berDoc_parts {X : Bytes → Prop} {P : Class → Bool → Nat → Bytes → Prop} {N d n : Nat} {e : Bytes}
    (H : BerDoc X P N d n e) :
    ∃ id cls k num rest, e = id ++ rest ∧ MinIdent id cls k num ∧
      ((∃ len c, rest = len ++ c ∧ LenOctets len (.definite c.length) ∧
        ((k = false ∧ (cls = .universal → BerPrim num c)) ∨ (k = true ∧ Composite cls num) ∨
         (k = true ∧ cls = .universal ∧ (num = 16 ∨ num = 17) ∧ ∃ (es : List Bytes) (d' n' : Nat), c = es.flatten ∧
            ∀ e ∈ es, BerDoc X P N d' n' e))) ∨
       (∃ (es : List Bytes) (d' n' : Nat), rest = 0x80 :: (es.flatten ++ [0, 0]) ∧ k = true ∧
        ((Composite cls num ∧ ∀ e ∈ es, Element IsEoc X n' e) ∨
         (cls = .universal ∧ (num = 16 ∨ num = 17) ∧ ∀ e ∈ es, BerDoc X P N d' n' e ∧ ¬ X e)))) := by
  cases H with
  | primitive d n id len c cls num h1 h2 h3 h4 => exact ⟨id, cls, _, num, _, rfl, h1, .inl ⟨len, c, rfl, h2, .inl ⟨rfl, h3⟩⟩⟩
  | constructed d n id len c cls num h1 h2 h3 h4 =>
    exact ⟨id, cls, _, num, _, rfl, h1, .inl ⟨len, c, rfl, h2, .inr (.inl ⟨rfl, h3⟩)⟩⟩
  | constructedIndefinite d n id es cls num h1 h2 h3 h4 =>
    exact ⟨id, cls, _, num, _, rfl, h1, .inr ⟨es, d, _, rfl, rfl, .inl ⟨h2, h4⟩⟩⟩
  | list d n id len es num h1 h2 h3 h4 =>
    exact ⟨id, _, _, num, _, rfl, h1, .inl ⟨len, _, rfl, h3, .inr (.inr ⟨rfl, rfl, h2, es, _, _, rfl, h4⟩)⟩⟩
  | listIndefinite d n id es num h1 h2 h3 h4 =>
    exact ⟨id, _, _, num, _, rfl, h1, .inr ⟨es, _, _, rfl, rfl, .inr ⟨rfl, h2, fun e he => ⟨h3 e he, h4 e he⟩⟩⟩⟩

theorem berUndue_prim {num : Nat} {c : Bytes} (h : BerUndue num false c) : ¬ BerPrim num c := by
  intro p
  cases h with
  | endOfContents h => subst h; exact p
  | constructed h => cases h
  | primitive _ h =>
    simp only [List.mem_cons, List.not_mem_nil, or_false] at h
    rcases h with rfl | rfl | rfl <;> exact p
  | integerEmpty _ h1 h2 => subst h1; exact p.1 h2
  | integerNine b _ h1 h2 =>
    subst h1
    cases b with
    | false => exact p.2.1 h2
    | true => exact p.2.2 h2
  | bitsUnused u s _ h1 h2 h3 =>
    subst h1 h2
    obtain ⟨u', s', e, h4, _⟩ := p
    cases e
    omega
  | bitsNone u _ h1 h2 h3 =>
    subst h1 h2
    obtain ⟨u', s', e, _, h4⟩ := p
    cases e
    exact h3 (h4 rfl)
  | null _ h1 h2 => subst h1; exact h2 p
  | oid _ h1 h2 => rcases h1 with rfl | rfl <;> exact h2 p
  | enumerated _ h1 h2 => subst h1; exact h2 p
  | utcTime _ h1 h2 => subst h1; exact h2 p
  | generalizedTime _ h1 h2 => subst h1; exact h2 p
  | delete _ h1 h2 =>
    subst h1
    have := (p _ h2).2
    revert this
    decide
  | universal _ h1 h2 => subst h1; exact h2 p
  | bmp _ h1 h2 =>
    subst h1
    obtain ⟨cs, h3, h4⟩ := p
    exact h2 cs h3 h4

theorem composite_mem {num : Nat} : Composite .universal num ∨ num = 16 ∨ num = 17 ↔ num ∈ compositeNumbers := by
  simp [Composite, compositeNumbers]
  omega

theorem berUndue_constructed {num : Nat} {c : Bytes} (h : BerUndue num true c) : num ∉ compositeNumbers := by
  cases h with
  | endOfContents h => subst h; decide
  | constructed _ h => exact h
  | _ => contradiction

theorem berDoc_no_fault {P : Class → Bool → Nat → Bytes → Prop} {e : Bytes} (H : BerFault e) :
    ∀ N d n, ¬ BerDoc LooseEoc P N d n e := by
  have list : ∀ {N d n' : Nat} {n : Nat} {id : Bytes} {es : List Bytes} {t : Bytes} {cls : Class} {k : Bool} {num : Nat},
      IdentOctets id cls k num → (∀ e ∈ es, Element LooseEoc LooseEoc n e) → LooseEoc t →
      BerDoc LooseEoc P N d n' (id ++ 0x80 :: (es.flatten ++ t)) → t = [0, 0] ∧ ∃ d' n'',
        ((Composite cls num ∧ ∀ e ∈ es, Element IsEoc LooseEoc n'' e) ∨
         (cls = .universal ∧ (num = 16 ∨ num = 17) ∧ ∀ e ∈ es, BerDoc LooseEoc P N d' n'' e ∧ ¬ LooseEoc e)) := by
    intro N d n' n id es t cls k num h1 h2 h3 D
    obtain ⟨id0, cls0, k0, num0, rest, e, m, hp⟩ := berDoc_parts D
    obtain ⟨rfl, rfl, rfl, rfl, rfl⟩ := identOctets_unique h1 m.1 e
    rcases hp with ⟨len, c, e, hl, _⟩ | ⟨fs, d', n'', e, _, hp⟩
    · obtain ⟨_, hl, _⟩ := lenOctets_unique (len := [0x80]) (r := es.flatten ++ t) .indefinite hl (by simpa using e)
      cases hl
    · simp only [List.cons.injEq, true_and] at e
      have key : fs = es ∧ t = [0, 0] := by
        have hE : ∀ e ∈ fs, Ends e ∧ ¬ LooseEoc e := by
          intro x hx
          rcases hp with ⟨_, hp⟩ | ⟨_, _, hp⟩
          · exact ⟨element_ends (hp x hx), element_not_loose (hp x hx)⟩
          · exact ⟨berDoc_ends (hp x hx).1, (hp x hx).2⟩
        have := ends_list_unique (r := []) (r' := []) (fun x hx => ends_unique (hE x hx).1) (fun x hx => (hE x hx).2) h2 h3
          (by simpa using e.symm)
        exact ⟨this.1, this.2.1⟩
      obtain ⟨rfl, rfl⟩ := key
      exact ⟨rfl, d', n'', hp⟩
  induction H with
  | ident id id' rest cls k num h1 h2 h3 =>
    intro N d n' D
    obtain ⟨id0, cls0, k0, num0, rest, e, m, _⟩ := berDoc_parts D
    obtain ⟨rfl, rfl, rfl, rfl, _⟩ := identOctets_unique h1 m.1 e
    have := m.2 _ h2
    omega
  | contents id len c k num h1 h2 h3 =>
    intro N d n' D
    obtain ⟨id0, cls0, k0, num0, rest, e, m, hp⟩ := berDoc_parts D
    obtain ⟨rfl, rfl, rfl, rfl, rfl⟩ := identOctets_unique h1 m.1 e
    rcases hp with ⟨len', c', e, hl, hp⟩ | ⟨fs, d', n'', e, _, hp⟩
    · obtain ⟨rfl, _, rfl⟩ := lenOctets_unique h2 hl e
      rcases hp with ⟨rfl, hp⟩ | ⟨rfl, hp⟩ | ⟨rfl, _, hp, _⟩
      · exact berUndue_prim h3 (hp rfl)
      · exact berUndue_constructed h3 (composite_mem.1 (.inl hp))
      · exact berUndue_constructed h3 (composite_mem.1 (.inr hp))
    · obtain ⟨_, hl, _⟩ := lenOctets_unique (len' := [0x80]) (r' := fs.flatten ++ [0, 0]) h2 .indefinite (by simpa using e)
      cases hl
  | indefinite id rest k num h1 h2 =>
    intro N d n' D
    obtain ⟨id0, cls0, k0, num0, rest, e, m, hp⟩ := berDoc_parts D
    obtain ⟨rfl, rfl, rfl, rfl, rfl⟩ := identOctets_unique h1 m.1 e
    rcases hp with ⟨len', c', e, hl, hp⟩ | ⟨fs, d', n'', e, _, ⟨hp, _⟩ | ⟨_, hp, _⟩⟩
    · obtain ⟨_, hl, _⟩ := lenOctets_unique (len := [0x80]) .indefinite hl (by simpa using e)
      cases hl
    · exact h2 (composite_mem.1 (.inl hp))
    · exact h2 (composite_mem.1 (.inr hp))
  | terminator n id es t cls k num h1 h2 h3 h4 => exact fun N d n' D => h4 (list h1 h2 h3 D).1
  | inner n id es t e cls k num h1 h2 h3 h4 h5 h6 =>
    intro N d n' D
    obtain ⟨_, d', n'', ⟨_, hp⟩ | ⟨hu, hp, _⟩⟩ := list h1 h3 h4 D
    · exact h6 n'' (hp e h5)
    · rcases h2 with h2 | h2
      · exact h2 hu
      · omega
  | member id len es e num h1 h2 h3 h4 h5 _ ih =>
    intro N d n' D
    obtain ⟨id0, cls0, k0, num0, rest, e, m, hp⟩ := berDoc_parts D
    obtain ⟨rfl, rfl, rfl, rfl, rfl⟩ := identOctets_unique h1 m.1 e
    rcases hp with ⟨len', c', e, hl, hp⟩ | ⟨fs, d', n'', e, _, hp⟩
    · obtain ⟨rfl, _, rfl⟩ := lenOctets_unique h3 hl e
      rcases hp with ⟨hk, _⟩ | ⟨_, hp⟩ | ⟨_, _, _, fs, d', n'', hf, hd⟩
      · cases hk
      · rcases h2 with rfl | rfl <;> simp [Composite] at hp
      · rw [← ends_flatten_unique (fun x hx => berDoc_ends (hd x hx)) h4 hf.symm] at h5
        exact ih N d' n'' (hd _ h5)
    · obtain ⟨_, hl, _⟩ := lenOctets_unique (len' := [0x80]) (r' := fs.flatten ++ [0, 0]) h3 .indefinite (by simpa using e)
      cases hl
  | memberIndefinite n id es t e num h1 h2 h3 h4 h5 _ ih =>
    intro N d n' D
    obtain ⟨_, d', n'', ⟨hp, _⟩ | ⟨_, _, hp⟩⟩ := list h1 h3 h4 D
    · rcases h2 with rfl | rfl <;> simp [Composite] at hp
    · exact ih N d' n'' (hp e h5).1

/-- Contents that are read and not undue are BER. -/
theorem leaf_berDue {D : Deps} {num : Nat} {h : Header} {c : Bytes} {x : Content} (hx : Leaf D h c x)
    (hu : h.cls = .universal) (ht : h.tag = num % 2 ^ 32) (hn : ¬ BerUndue num h.constructed c) :
    (h.constructed = false ∧ BerPrim num c) ∨ (h.constructed = true ∧ Composite .universal num) := by
  cases hk : h.constructed with
  | true =>
    refine .inr ⟨rfl, ?_⟩
    have h1 : num ∈ compositeNumbers := Classical.byContradiction fun h1 => hn (.constructed hk h1)
    have h0 : num < 31 := by
      simp only [compositeNumbers, List.mem_cons, List.not_mem_nil, or_false] at h1
      omega
    refine (composite_mem.2 h1).resolve_right ?_
    have ht : h.tag = num := by omega
    subst ht
    have h2 : h.tag ≠ 16 ∧ h.tag ≠ 17 := by
      cases x with
      | str k s => obtain ⟨_, h, _⟩ := hx; rw [h]; cases k <;> decide
      | unknown a =>
        obtain ⟨_, h | h | h⟩ := hx
        · exact absurd hu h
        · simp only [List.mem_cons, List.not_mem_nil, or_false] at h; omega
        · omega
      | _ => first | exact hx.elim | (have h := hx.2.1; omega) | (have h := hx.2; omega)
    omega
  | false =>
    refine .inl ⟨rfl, ?_⟩
    rw [hk] at hn
    by_cases hbig : 31 ≤ num
    · obtain ⟨m, rfl⟩ : ∃ m, num = m + 31 := ⟨num - 31, by omega⟩
      trivial
    have ht : h.tag = num := by omega
    subst ht
    cases x with
    | endOfContent => exact (hn (.endOfContents hx.2)).elim
    | boolean v =>
      obtain ⟨_, t, _, b, rfl, _⟩ := hx
      rw [t]
      rfl
    | integer s =>
      obtain ⟨_, t, rfl⟩ := hx
      rw [t]
      exact ⟨fun h => hn (.integerEmpty rfl t h), fun h => hn (.integerNine _ rfl t h), fun h => hn (.integerNine _ rfl t h)⟩
    | bitString u s =>
      obtain ⟨_, t, _, rfl⟩ := hx
      rw [t]
      refine ⟨u, s, rfl, Nat.le_of_not_lt fun h => hn (.bitsUnused u s rfl t rfl h), ?_⟩
      rintro rfl
      exact Classical.byContradiction fun h => hn (.bitsNone u rfl t rfl h)
    | octetString s => obtain ⟨_, t, _⟩ := hx; rw [t]; trivial
    | null =>
      obtain ⟨_, t⟩ := hx
      rw [t]
      exact Classical.byContradiction fun h => hn (.null rfl t h)
    | oid s =>
      obtain ⟨_, t, _⟩ := hx
      rw [t]
      exact Classical.byContradiction fun h => hn (.oid rfl (.inl t) h)
    | relativeOid s =>
      obtain ⟨_, t, _⟩ := hx
      rw [t]
      exact Classical.byContradiction fun h => hn (.oid rfl (.inr t) h)
    | enum n =>
      obtain ⟨_, t, _⟩ := hx
      rw [t]
      exact Classical.byContradiction fun h => hn (.enumerated rfl t h)
    | utcTime n =>
      obtain ⟨_, t, _⟩ := hx
      rw [t]
      exact Classical.byContradiction fun h => hn (.utcTime rfl t h)
    | generalizedTime n =>
      obtain ⟨_, t, _⟩ := hx
      rw [t]
      exact Classical.byContradiction fun h => hn (.generalizedTime rfl t h)
    | universalString s =>
      obtain ⟨_, t, _⟩ := hx
      rw [t]
      exact Classical.byContradiction fun h => hn (.universal rfl t h)
    | bmpString s =>
      obtain ⟨_, t, _⟩ := hx
      rw [t]
      exact Classical.byContradiction fun h => hn (.bmp rfl t fun cs h1 h2 => h ⟨cs, h1, h2⟩)
    | str k s =>
      obtain ⟨_, t, _, rfl, hc, hu8⟩ := hx
      rw [t]
      cases k with
      | numeric => exact hc
      | printable => exact hc
      | ia5 => exact hc
      | utf8 => exact hu8
      | visible =>
        intro b hb
        have h1 : 32 ≤ b.toNat ∧ b.toNat ≤ 127 := hc b hb
        refine ⟨h1.1, Classical.byContradiction fun h => hn (.delete rfl t ?_)⟩
        rwa [show (0x7f : UInt8) = b from UInt8.toNat.inj (by simp; omega)]
      | _ => trivial
    | unknown a =>
      obtain ⟨_, h1 | h1 | h1⟩ := hx
      · exact absurd hu h1
      · have h2 : ¬ h.tag ∈ [8, 11, 29] := fun h2 => hn (.primitive rfl h2)
        simp only [List.mem_cons, List.not_mem_nil, or_false] at h1 h2
        have h3 : h.tag = 9 ∨ h.tag = 14 ∨ h.tag = 15 := by omega
        rcases h3 with h3 | h3 | h3 <;> rw [h3] <;> trivial
      · omega
    | _ => exact hx.elim

theorem minIdent_of_no_berFault {id rest : Bytes} {cls : Class} {k : Bool} {num : Nat}
    (h : IdentOctets id cls k num) (hn : ¬ BerFault (id ++ rest)) : MinIdent id cls k num :=
  ⟨h, fun id' h' => Nat.le_of_not_lt fun hl => hn (.ident id id' rest cls k num h h' hl)⟩

theorem berDoc_mono {X : Bytes → Prop} {P : Class → Bool → Nat → Bytes → Prop} {N d n : Nat} {e : Bytes}
    (H : BerDoc X P N d n e) : ∀ {N' d' n'}, N ≤ N' → d ≤ d' → n ≤ n' → BerDoc X P N' d' n' e := by
  induction H with
  | primitive d n id len c cls num h1 h2 h3 h4 =>
    intro N' d' n' hN hd hn
    obtain ⟨d', rfl⟩ : ∃ k, d' = k + 1 := ⟨d' - 1, by omega⟩
    obtain ⟨n', rfl⟩ : ∃ k, n' = k + 1 := ⟨n' - 1, by omega⟩
    exact .primitive d' n' id len c cls num h1 h2 h3 h4
  | constructed d n id len c cls num h1 h2 h3 h4 =>
    intro N' d' n' hN hd hn
    obtain ⟨d', rfl⟩ : ∃ k, d' = k + 1 := ⟨d' - 1, by omega⟩
    obtain ⟨n', rfl⟩ : ∃ k, n' = k + 1 := ⟨n' - 1, by omega⟩
    exact .constructed d' n' id len c cls num h1 h2 h3 h4
  | constructedIndefinite d n id es cls num h1 h2 h3 h4 =>
    intro N' d' n' hN hd hn
    obtain ⟨d', rfl⟩ : ∃ k, d' = k + 1 := ⟨d' - 1, by omega⟩
    obtain ⟨n', rfl⟩ : ∃ k, n' = k + 2 := ⟨n' - 2, by omega⟩
    exact .constructedIndefinite d' n' id es cls num h1 h2 h3 fun e he => Element.mono (h4 e he) (by omega)
  | list d n id len es num h1 h2 h3 h4 ih =>
    intro N' d' n' hN hd hn
    obtain ⟨d', rfl⟩ : ∃ k, d' = k + 1 := ⟨d' - 1, by omega⟩
    obtain ⟨n', rfl⟩ : ∃ k, n' = k + 1 := ⟨n' - 1, by omega⟩
    exact .list d' n' id len es num h1 h2 h3 fun e he => ih e he hN (by omega) hN
  | listIndefinite d n id es num h1 h2 h3 h4 ih =>
    intro N' d' n' hN hd hn
    obtain ⟨d', rfl⟩ : ∃ k, d' = k + 1 := ⟨d' - 1, by omega⟩
    obtain ⟨n', rfl⟩ : ∃ k, n' = k + 2 := ⟨n' - 2, by omega⟩
    exact .listIndefinite d' n' id es num h1 h2 (fun e he => ih e he hN (by omega) (by omega)) h4

theorem element_strict {T X X' : Bytes → Prop} (hX : ∀ t, X' t → X t) {n : Nat} {e : Bytes}
    (h : Element T X n e) : Element T X' n e := by
  induction h with
  | definite n l hb c h h1 h2 h3 h4 => exact .definite n l hb c h h1 h2 h3 fun h => h4 (hX _ h)
  | indefinite n hb es t h h1 h2 h3 h4 ih => exact .indefinite n hb es t h h1 h2 ih h4

theorem berDoc_strict {X X' : Bytes → Prop} (hX : ∀ t, X' t → X t) {P : Class → Bool → Nat → Bytes → Prop} {N d n : Nat}
    {e : Bytes} (H : BerDoc X P N d n e) : BerDoc X' P N d n e := by
  induction H with
  | primitive d n id len c cls num h1 h2 h3 h4 => exact .primitive d n id len c cls num h1 h2 h3 h4
  | constructed d n id len c cls num h1 h2 h3 h4 => exact .constructed d n id len c cls num h1 h2 h3 h4
  | constructedIndefinite d n id es cls num h1 h2 h3 h4 =>
    exact .constructedIndefinite d n id es cls num h1 h2 h3 fun e he => element_strict hX (h4 e he)
  | list d n id len es num h1 h2 h3 h4 ih => exact .list d n id len es num h1 h2 h3 ih
  | listIndefinite d n id es num h1 h2 h3 h4 ih =>
    exact .listIndefinite d n id es num h1 h2 ih fun e he h => h4 e he (hX _ h)

theorem uniform_bound {α : Type} {P : Nat → α → Prop} (hP : ∀ {n m : Nat} {a : α}, P n a → n ≤ m → P m a) :
    ∀ {l : List α}, (∀ a ∈ l, ∃ n, P n a) → ∃ n, ∀ a ∈ l, P n a
  | [], _ => ⟨0, by simp⟩
  | a :: l, h => by
    obtain ⟨n, hn⟩ := uniform_bound (P := P) hP (l := l) (fun x hx => h x (by simp [hx]))
    obtain ⟨m, hm⟩ := h a (by simp)
    refine ⟨max n m, fun x hx => ?_⟩
    rcases List.mem_cons.1 hx with rfl | hx
    · exact hP hm (by omega)
    · exact hP (hn x hx) (by omega)

theorem denotes_berDoc {D : Deps} {d : Nat} {h : Header} {c : Bytes} {x : Content} (H : Denotes D d h c x) :
    ∀ e, Framed 50 e h c → ¬ BerFault e → ∃ n, BerDoc LooseEoc (fun _ _ _ _ => True) n n n e := by
  have indefinite : ∀ {hb t : Bytes} {es : List Bytes} {h : Header} {m : Nat}, BerHeader hb h → h.length = .indefinite →
      (∀ e ∈ es, Element LooseEoc LooseEoc (m + 1) e) → LooseEoc t → ¬ BerFault (hb ++ (es.flatten ++ t)) →
      ∃ id num, hb = id ++ [0x80] ∧ MinIdent id h.cls true num ∧ h.constructed = true ∧ h.tag = num % 2 ^ 32 ∧ t = [0, 0] := by
    intro hb t es h m H hl hes ht hn
    obtain ⟨id, len, num, rfl, h1, h2, h3, _⟩ := H.octets
    rw [hl] at h2
    cases h2
    have hk := H.indef_constructed hl
    simp only [List.append_assoc, List.cons_append, List.nil_append] at hn
    have h4 := minIdent_of_no_berFault h1 hn
    rw [hk] at h4
    exact ⟨id, num, rfl, h4, hk, h3, Classical.byContradiction fun h => hn (.terminator _ id es t _ _ num h1 hes ht h)⟩
  induction H with
  | leaf d h c x hx =>
    intro e hF hn
    cases hF with
    | definite hb c h H hl =>
      obtain ⟨id, len, num, rfl, h1, h2, h3, _⟩ := H.octets
      rw [hl] at h2
      rw [List.append_assoc] at hn ⊢
      have h4 := minIdent_of_no_berFault h1 hn
      by_cases hu : h.cls = .universal
      · rw [hu] at h1 h4
        rcases leaf_berDue hx hu h3 (fun h => hn (.contents id len c _ num h1 h2 h)) with ⟨hk, hp⟩ | ⟨hk, hp⟩
        · rw [hk] at h4
          exact ⟨1, .primitive 0 0 id len c _ num h4 h2 (fun _ => hp) trivial⟩
        · rw [hk] at h4
          exact ⟨1, .constructed 0 0 id len c _ num h4 h2 hp trivial⟩
      · cases hk : h.constructed with
        | false => rw [hk] at h4; exact ⟨1, .primitive 0 0 id len c _ num h4 h2 (fun h => absurd h hu) trivial⟩
        | true => rw [hk] at h4; exact ⟨1, .constructed 0 0 id len c _ num h4 h2 (.inl hu) trivial⟩
    | indefinite m hb es t h hm H hl hes ht =>
      obtain ⟨id, num, rfl, h1, hk, h3, rfl⟩ := indefinite H hl hes ht hn
      simp only [List.append_assoc, List.cons_append, List.nil_append] at hn ⊢
      have hc : Composite h.cls num ∧ (h.cls ≠ .universal ∨ num ≠ 16 ∧ num ≠ 17) := by
        by_cases hu : h.cls = .universal
        · rw [hu] at h1 ⊢
          have g1 : num ∈ compositeNumbers := Classical.byContradiction fun h => hn (.indefinite id _ _ num h1.1 h)
          rcases leaf_berDue hx hu h3 (fun h => by
            rw [hk] at h
            exact berUndue_constructed h g1) with ⟨hk', _⟩ | ⟨_, hp⟩
          · rw [hk] at hk'
            cases hk'
          · refine ⟨hp, .inr ?_⟩
            simp only [Composite, ne_eq, not_true_eq_false, false_or, List.mem_cons, List.not_mem_nil, or_false] at hp
            omega
        · exact ⟨.inl hu, .inl hu⟩
      obtain ⟨n, hn'⟩ := uniform_bound (P := fun n e => Element IsEoc LooseEoc n e) Element.mono (l := es) fun e he =>
        Classical.byContradiction fun h => hn (.inner _ id es _ e _ _ num h1.1 hc.2 hes ht he fun m hm => h ⟨m, hm⟩)
      exact ⟨n + 2, .constructedIndefinite (n + 1) n id es _ num h1 hc.1 trivial fun e he => Element.mono (hn' e he) (by omega)⟩
  | sequence d h items hc ht hk hI _ ih | set d h items hc ht hk hI _ ih =>
    intro e hF hn
    generalize hbody : items.flatMap Item.bytes = body at hF
    cases hF with
    | definite hb c h H hl =>
      subst hbody
      obtain ⟨id, len, num, rfl, h1, h2, h3, _⟩ := H.octets
      rw [hl, ← items_flatten] at h2
      rw [List.append_assoc, ← items_flatten] at hn ⊢
      have h4 := minIdent_of_no_berFault h1 hn
      rw [hc, hk] at h1 h4
      have h5 : num = 16 ∨ num = 17 := by
        refine Classical.byContradiction fun h5 => hn (.contents id len _ true num h1 h2 (.constructed rfl ?_))
        simp only [compositeNumbers, List.mem_cons, List.not_mem_nil, or_false]
        omega
      have hF : ∀ x ∈ items.map Item.bytes, ∃ h c, Framed 50 x h c := by
        intro x hx
        obtain ⟨it, hit, rfl⟩ := List.mem_map.1 hx
        exact ⟨_, _, hI it hit⟩
      obtain ⟨n, hn'⟩ := uniform_bound (P := fun n e => BerDoc LooseEoc (fun _ _ _ _ => True) n n n e) (fun h hm => berDoc_mono h hm hm hm)
        (l := items.map Item.bytes) fun e he => by
          obtain ⟨it, hit, rfl⟩ := List.mem_map.1 he
          exact ih it hit _ (hI it hit) fun hf => hn (.member id len _ _ num h1 h5 h2 hF he hf)
      exact ⟨n + 1, .list n n id len _ num h4 h5 h2 fun e he => berDoc_mono (hn' e he) (by omega) (by omega) (by omega)⟩
    | indefinite m hb es t h hm H hl hes ht' =>
      obtain ⟨id, num, rfl, h1, _, h3, rfl⟩ := indefinite H hl hes ht' hn
      rw [← items_flatten] at hbody
      replace hbody : (items.map Item.bytes).flatten = es.flatten := by simpa using hbody
      obtain rfl := framed_list_unique es items (fun x hx => element_framed (hes x hx) (by omega)) hI
        (by rw [← hbody, items_flatten])
      simp only [List.append_assoc, List.cons_append, List.nil_append] at hn ⊢
      rw [hc] at h1
      have h5 : num = 16 ∨ num = 17 := by
        refine Classical.byContradiction fun h5 => hn (.indefinite id _ _ num h1.1 ?_)
        simp only [compositeNumbers, List.mem_cons, List.not_mem_nil, or_false]
        omega
      obtain ⟨n, hn'⟩ := uniform_bound (P := fun n e => BerDoc LooseEoc (fun _ _ _ _ => True) n n n e) (fun h hm => berDoc_mono h hm hm hm)
        (l := items.map Item.bytes) fun e he => by
          obtain ⟨it, hit, rfl⟩ := List.mem_map.1 he
          exact ih it hit _ (hI it hit) fun hf => hn (.memberIndefinite _ id _ _ _ num h1.1 h5 hes ht' he hf)
      exact ⟨n + 2, .listIndefinite (n + 1) n id _ num h1 h5
        (fun e he => berDoc_mono (hn' e he) (by omega) (by omega) (by omega))
        fun e he => element_not_loose (hes e he)⟩

/-! ## C122 -/

/-- C122 in full: what `parse_ber` accepts is BER. -/
def C122Statement : Prop :=
  ∀ (D : Deps) (d : Nat) (e rest : Bytes) (o : BerObject), parseBerRecursive D d (e ++ rest) = .ok (rest, o) →
    ∃ n, BerDoc IsEoc (fun _ _ _ _ => True) n n n e

/-- C122, what holds: an accepted element is BER, without elements of number 0 and length 0 directly inside an indefinite
length, exactly if it has none of the faults listed in `Spec.BerFault`.  Missing: elements with one of them (see the
counterexamples). -/
theorem C122_faults_partial (D : Deps) (d : Nat) (e rest : Bytes) (o : BerObject)
    (h : parseBerRecursive D d (e ++ rest) = .ok (rest, o)) :
    ((∃ n, BerDoc LooseEoc (fun _ _ _ _ => True) n n n e) ↔ ¬ BerFault e) ∧
    (¬ BerFault e → ∃ n, BerDoc IsEoc (fun _ _ _ _ => True) n n n e) := by
  obtain ⟨e', c, he, hF, hD⟩ := parseBerRecursive_iff.1 h
  obtain rfl := List.append_cancel_right he
  have key := denotes_berDoc hD _ hF
  refine ⟨⟨fun ⟨d', h1⟩ h2 => berDoc_no_fault h2 _ _ _ h1, key⟩, fun hn => ?_⟩
  obtain ⟨d', h1⟩ := key hn
  exact ⟨d', berDoc_strict looseEoc_of_isEoc h1⟩

theorem not_berDoc_contents {X : Bytes → Prop} {P : Class → Bool → Nat → Bytes → Prop} {b l : UInt8} (c : Bytes)
    (hb : b.toNat % 32 ≠ 31) (hc : classOf b = .universal) (hl : l.toNat < 128) (hn : c.length = l.toNat)
    (h : BerUndue (b.toNat % 32) (constructedBit b) c) : BerFault (b :: l :: c) ∧
      ∀ N d n, ¬ BerDoc X P N d n (b :: l :: c) := by
  have hi := IdentOctets.low b hb
  rw [hc] at hi
  have hl' : LenOctets [l] (.definite c.length) := by rw [hn]; exact .short l hl
  refine ⟨.contents [b] [l] c _ _ hi hl' h, fun N d n D => ?_⟩
  obtain ⟨id0, cls0, k0, num0, rest, e, m, hp⟩ := berDoc_parts D
  obtain ⟨rfl, rfl, rfl, rfl, rfl⟩ := identOctets_unique (r := l :: c) hi m.1 (by simpa using e)
  rcases hp with ⟨len', c', e, hl, hp⟩ | ⟨fs, d', n'', e, _, hp⟩
  · obtain ⟨rfl, _, rfl⟩ := lenOctets_unique (r := c) hl' hl (by simpa using e)
    rcases hp with ⟨hk, hp⟩ | ⟨hk, hp⟩ | ⟨hk, _, hp, _⟩ <;> rw [hk] at h
    · exact berUndue_prim h (hp rfl)
    · exact berUndue_constructed h (composite_mem.1 (.inl hp))
    · exact berUndue_constructed h (composite_mem.1 (.inr hp))
  · obtain ⟨_, hl, _⟩ := lenOctets_unique (r := c) (len' := [0x80]) (r' := fs.flatten ++ [0, 0]) hl' .indefinite (by simpa using e)
    cases hl

/-- C122 is false: these are accepted, and not BER. -/
theorem C122_contents_counterexample (D : Deps) : ∀ e ∈ ([
    [0x00, 0x00],                       -- end-of-contents
    [0x22, 0x01, 0x05],                 -- INTEGER, constructed
    [0x08, 0x00],                       -- EXTERNAL, primitive
    [0x02, 0x00],                       -- INTEGER without contents
    [0x02, 0x02, 0x00, 0x01],           -- INTEGER 1 with two octets
    [0x02, 0x02, 0xff, 0xff],           -- INTEGER -1 with two octets
    [0x03, 0x02, 0x08, 0x00],           -- BIT STRING with eight unused bits
    [0x03, 0x01, 0x07],                 -- BIT STRING without bits, seven of them unused
    [0x05, 0x01, 0x00],                 -- NULL with contents
    [0x06, 0x00],                       -- OBJECT IDENTIFIER without contents
    [0x0d, 0x01, 0x80],                 -- RELATIVE-OID, cut
    [0x0a, 0x00],                       -- ENUMERATED without contents
    [0x1a, 0x01, 0x7f],                 -- VisibleString with DELETE
    [0x1c, 0x01, 0x41],                 -- UniversalString of one octet
    [0x1e, 0x04, 0xd8, 0x00, 0xdc, 0x00] -- BMPString with U+10000
    ] : List Bytes), (∃ o, parseBer D e = .ok ([], o)) ∧ BerFault e ∧
      ∀ N d n, ¬ BerDoc IsEoc (fun _ _ _ _ => True) N d n e := by
  have hoid : ∀ c : Bytes, (∀ b ∈ c, 128 ≤ b.toNat) → ¬ OidContents c := by
    rintro c hc ⟨ss, hs, rfl, h⟩
    cases ss with
    | nil => exact hs rfl
    | cons s ss =>
      obtain ⟨ms, l, rfl, _, hl, _⟩ := h s (by simp)
      have := hc l (by simp)
      omega
  simp only [List.forall_mem_cons, List.not_mem_nil, false_imp_iff, implies_true, and_true]
  refine ⟨⟨⟨_, rfl⟩, not_berDoc_contents _ (by decide) rfl (by decide) rfl (.endOfContents rfl)⟩,
    ⟨⟨_, rfl⟩, not_berDoc_contents _ (by decide) rfl (by decide) rfl (.constructed rfl (by decide))⟩,
    ⟨⟨_, rfl⟩, not_berDoc_contents _ (by decide) rfl (by decide) rfl (.primitive rfl (by decide))⟩,
    ⟨⟨_, rfl⟩, not_berDoc_contents _ (by decide) rfl (by decide) rfl (.integerEmpty rfl rfl rfl)⟩,
    ⟨⟨_, rfl⟩, not_berDoc_contents _ (by decide) rfl (by decide) rfl (.integerNine false rfl rfl (by decide))⟩,
    ⟨⟨_, rfl⟩, not_berDoc_contents _ (by decide) rfl (by decide) rfl (.integerNine true rfl rfl (by decide))⟩,
    ⟨⟨_, rfl⟩, not_berDoc_contents _ (by decide) rfl (by decide) rfl (.bitsUnused 8 [0] rfl rfl rfl (by decide))⟩,
    ⟨⟨_, rfl⟩, not_berDoc_contents _ (by decide) rfl (by decide) rfl (.bitsNone 7 rfl rfl rfl (by decide))⟩,
    ⟨⟨_, rfl⟩, not_berDoc_contents _ (by decide) rfl (by decide) rfl (.null rfl rfl (by decide))⟩,
    ⟨⟨_, rfl⟩, not_berDoc_contents _ (by decide) rfl (by decide) rfl (.oid rfl (.inl rfl) (hoid _ (by simp)))⟩,
    ⟨⟨_, rfl⟩, not_berDoc_contents _ (by decide) rfl (by decide) rfl (.oid rfl (.inr rfl) (hoid _ (by simp)))⟩,
    ⟨⟨_, rfl⟩, not_berDoc_contents _ (by decide) rfl (by decide) rfl (.enumerated rfl rfl fun h => h.1 rfl)⟩,
    ⟨⟨_, rfl⟩, not_berDoc_contents _ (by decide) rfl (by decide) rfl (.delete rfl rfl (by decide))⟩,
    ⟨⟨_, rfl⟩, not_berDoc_contents _ (by decide) rfl (by decide) rfl (.universal rfl rfl (by decide))⟩,
    ⟨⟨_, rfl⟩, not_berDoc_contents _ (by decide) rfl (by decide) rfl (.bmp rfl rfl ?_)⟩⟩
  intro cs hcs h
  cases cs with
  | nil => simp at h
  | cons x cs =>
    obtain ⟨h1, h2⟩ := hcs x (by simp)
    rw [List.flatMap_cons, utf16Enc, if_pos h2] at h
    simp only [List.cons_append, List.cons.injEq] at h
    have h3 : (0xd8 : UInt8).toNat = _ := congrArg UInt8.toNat h.1
    simp only [UInt8.toNat_ofNat'] at h3
    have h4 : (0xd8 : UInt8).toNat = 216 := rfl
    rw [IsScalar] at h1
    omega

/-- C122 is false for identifier octets that could be shorter, for indefinite lengths of INTEGER, for those ended by `80 00`,
at any depth, and for members. -/
theorem C122_forms_counterexample (D : Deps) : ∀ e ∈ ([
    [0x1f, 0x02, 0x01, 0x05],           -- INTEGER 5 with two identifier octets
    [0x22, 0x80, 0x00, 0x00],           -- INTEGER of indefinite length
    [0x30, 0x80, 0x80, 0x00],           -- SEQUENCE ended by `80 00`
    [0xa0, 0x80, 0x30, 0x80, 0x80, 0x00, 0x00, 0x00], -- the same inside an element that is not looked into
    [0x30, 0x02, 0x00, 0x00],           -- end-of-contents inside a SEQUENCE
    [0x30, 0x80, 0x05, 0x01, 0x00, 0x00, 0x00] -- NULL with contents inside a SEQUENCE of indefinite length
    ] : List Bytes), (∃ o, parseBer D e = .ok ([], o)) ∧ BerFault e ∧
      ∀ N d n, ¬ BerDoc LooseEoc (fun _ _ _ _ => True) N d n e := by
  have h80 : LooseEoc [0x80, 0x00] :=
    ⟨_, berHeader_of (minIdent_low 0x80 (by decide)) (.short 0 (by decide)) (by decide) (by decide), rfl, rfl⟩
  have h30 : BerHeader [0x30, 0x80] ⟨.universal, true, 16, .indefinite, some [0x30]⟩ :=
    berHeader_indefinite (minIdent_low 0x30 (by decide)) (by decide)
  suffices h : ∀ e ∈ _, (∃ o, parseBer D e = .ok ([], o)) ∧ BerFault e from
    fun e he => ⟨(h e he).1, (h e he).2, berDoc_no_fault (h e he).2⟩
  simp only [List.forall_mem_cons, List.not_mem_nil, false_imp_iff, implies_true, and_true]
  refine ⟨⟨⟨_, rfl⟩, ?_⟩, ⟨⟨_, rfl⟩, ?_⟩, ⟨⟨_, rfl⟩, ?_⟩, ⟨⟨_, rfl⟩, ?_⟩, ⟨⟨_, rfl⟩, ?_⟩, ⟨⟨_, rfl⟩, ?_⟩⟩
  · exact .ident [0x1f, 0x02] [0x02] [0x01, 0x05] _ _ _ (.high 0x1f [] 0x02 (by decide) (by simp) (by decide))
      (.low 0x02 (by decide)) (by decide)
  · exact .indefinite [0x22] _ _ _ (.low 0x22 (by decide)) (by decide)
  · exact .terminator 0 [0x30] [] [0x80, 0x00] _ _ _ (.low 0x30 (by decide)) (by simp) h80 (by decide)
  · refine .inner 2 [0xa0] [[0x30, 0x80, 0x80, 0x00]] [0, 0] [0x30, 0x80, 0x80, 0x00] .contextSpecific true 0
      (.low 0xa0 (by decide)) (.inl (by decide)) ?_ (looseEoc_of_isEoc _ rfl) (by simp) ?_
    · simp only [List.mem_singleton, forall_eq]
      exact .indefinite 0 [0x30, 0x80] [] [0x80, 0x00] _ h30 rfl (by simp) h80
    · intro m hm
      generalize he : ([0x30, 0x80, 0x80, 0x00] : Bytes) = e at hm
      cases hm with
      | definite n l hb c h h1 h2 h3 h4 =>
        obtain ⟨_, rfl⟩ := berHeader_unique h30 h1 (x := [0x80, 0x00]) (x' := c) he
        cases h2
      | indefinite n hb es t h h1 h2 h3 h4 =>
        have h5 := congrArg List.reverse he
        rw [show t = [0, 0] from h4] at h5
        simp at h5
  · refine .member [0x30] [0x02] [[0x00, 0x00]] [0x00, 0x00] 16 (.low 0x30 (by decide)) (.inl rfl) (.short 2 (by decide))
      ?_ (by simp) ?_
    · simp only [List.mem_singleton, forall_eq]
      exact accepted_framed (D := D) ⟨_, rfl⟩
    · exact (not_berDoc_contents (X := IsEoc) (P := fun _ _ _ _ => True) [] (by decide) rfl (by decide) rfl
        (.endOfContents rfl)).1
  · refine .memberIndefinite 1 [0x30] [[0x05, 0x01, 0x00]] [0x00, 0x00] [0x05, 0x01, 0x00] 16 (.low 0x30 (by decide))
      (.inl rfl) ?_ (looseEoc_of_isEoc _ rfl) (by simp) ?_
    · simp only [List.mem_singleton, forall_eq]
      have h5 : BerHeader [0x05, 0x01] ⟨.universal, false, 5, .definite 1, some [0x05]⟩ :=
        berHeader_of (minIdent_low 0x05 (by decide)) (.short 1 (by decide)) (by decide) (by decide)
      exact .definite 0 1 [0x05, 0x01] [0x00] _ h5 rfl rfl fun h => by simpa using (looseEoc_iff h5 rfl rfl).1 h
    · exact (not_berDoc_contents (X := IsEoc) (P := fun _ _ _ _ => True) [0x00] (by decide) rfl (by decide) rfl
        (.null rfl rfl (by decide))).1

/-- With an element of number 0 and length 0 inside an indefinite length, an accepted document can be BER and yet be read
otherwise: here the SEQUENCE has one member, a SEQUENCE whose member is `[0] IMPLICIT NULL`; the library finds two
members, an empty SEQUENCE and end-of-contents. -/
theorem C122_misread_counterexample (D : Deps) :
    BerDoc IsEoc (fun _ _ _ _ => True) 2 3 1 [0x30, 0x06, 0x30, 0x80, 0x80, 0x00, 0x00, 0x00] ∧
    BerFault [0x30, 0x06, 0x30, 0x80, 0x80, 0x00, 0x00, 0x00] ∧
    ∃ h1 h2 h3, parseBer D [0x30, 0x06, 0x30, 0x80, 0x80, 0x00, 0x00, 0x00] =
      .ok ([], .mk h1 (.sequence [.mk h2 (.sequence []), .mk h3 .endOfContent])) := by
  refine ⟨?_, ?_, ⟨_, _, _, rfl⟩⟩
  · refine .list 2 0 [0x30] [0x06] [[0x30, 0x80, 0x80, 0x00, 0x00, 0x00]] 16 (minIdent_low 0x30 (by decide)) (.inl rfl)
      (.short 6 (by decide)) ?_
    simp only [List.mem_singleton, forall_eq]
    exact berDoc_mono (C121_empty_zero_counterexample D).1 (by omega) (by omega) (by omega)
  · refine .member [0x30] [0x06] [[0x30, 0x80, 0x80, 0x00], [0x00, 0x00]] [0x00, 0x00] 16 (.low 0x30 (by decide)) (.inl rfl)
      (.short 6 (by decide)) ?_ (by simp) ?_
    · simp only [List.forall_mem_cons, List.not_mem_nil, false_imp_iff, implies_true, and_true]
      exact ⟨accepted_framed (D := D) ⟨_, rfl⟩, accepted_framed (D := D) ⟨_, rfl⟩⟩
    · exact (not_berDoc_contents (X := IsEoc) (P := fun _ _ _ _ => True) [] (by decide) rfl (by decide) rfl
        (.endOfContents rfl)).1

/-- C122 as stated is false. -/
theorem C122_full_counterexample : ¬ C122Statement := fun h => by
  obtain ⟨⟨o, h1⟩, _, h2⟩ := C122_contents_counterexample Tests.D0 [0x05, 0x01, 0x00] (by simp)
  obtain ⟨d', h3⟩ := h Tests.D0 50 [0x05, 0x01, 0x00] [] o h1
  exact h2 _ _ _ h3

/-- The hypotheses of C122 can be met: a SEQUENCE of indefinite length with an INTEGER whose length is in the long form is
accepted, is BER, and so has no faults. -/
example : ¬ BerFault [0x30, 0x80, 0x02, 0x81, 0x01, 0x05, 0x00, 0x00] := by
  refine ((C122_faults_partial Tests.D0 50 _ [] _ rfl).1).1 ⟨2, ?_⟩
  refine .listIndefinite 1 0 [0x30] [[0x02, 0x81, 0x01, 0x05]] 16 (minIdent_low 0x30 (by decide)) (.inl rfl) ?_ ?_
  · simp only [List.mem_singleton, forall_eq]
    exact .primitive 0 0 [0x02] [0x81, 0x01] [0x05] .universal 2 (minIdent_low 0x02 (by decide))
      (.long 0x81 [1] (by decide) (by decide) rfl) (fun _ => ⟨by decide, by decide, by decide⟩) trivial
  · simp only [List.mem_singleton, forall_eq]
    have h1 : BerHeader [0x02, 0x81, 0x01] ⟨.universal, false, 2, .definite 1, some [0x02]⟩ :=
      berHeader_of (minIdent_low 0x02 (by decide)) (.long 0x81 [1] (by decide) (by decide) rfl) (by decide) (by decide)
    exact fun h => by simpa using (looseEoc_iff (c := [0x05]) h1 rfl rfl).1 h

end Verif
