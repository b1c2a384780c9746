import Verif.SpecText
import Verif.Props.Print
/-!
# Properties C93–C94: printed headers and values
-/
namespace Verif
open Outcome Spec

/-! ## Numerals -/

theorem decimalRev_fuel : ∀ (f g n : Nat), n < f → n < g → decimalRev f n = decimalRev g n
  | 0, _, _, h, _ => by omega
  | _ + 1, 0, _, _, h => by omega
  | f + 1, g + 1, n, h1, h2 => by
    rw [decimalRev, decimalRev]
    by_cases h0 : n / 10 = 0
    · rw [if_pos h0, if_pos h0]
    · rw [if_neg h0, if_neg h0, decimalRev_fuel f g (n / 10) (by omega) (by omega)]

theorem decimal_small {n : Nat} (h : n < 10) : decimal n = [UInt8.ofNat (0x30 + n)] := by
  unfold decimal
  rw [decimalRev, if_pos (by omega), Nat.mod_eq_of_lt h]
  rfl

theorem decimal_step {n : Nat} (h : 10 ≤ n) : decimal n = decimal (n / 10) ++ [UInt8.ofNat (0x30 + n % 10)] := by
  unfold decimal
  rw [decimalRev, if_neg (by omega), List.reverse_cons, decimalRev_fuel n (n / 10 + 1) (n / 10) (by omega) (by omega)]

theorem digit_toNat {d : Nat} (h : d < 10) : (UInt8.ofNat (0x30 + d)).toNat = 0x30 + d := by
  rw [UInt8.toNat_ofNat']
  omega

theorem isDecimal_decimal (n : Nat) : IsDecimal (decimal n) n := by
  induction n using Nat.strongRecOn with
  | _ n ih =>
    by_cases h : n < 10
    · rw [decimal_small h]
      refine ⟨by simp, fun b hb => ?_, fun hb => ?_, ?_⟩
      · rw [List.mem_singleton.1 hb, digit_toNat h]; omega
      · simp only [List.head?_cons, Option.some.injEq] at hb; rw [hb]
      · simp only [List.foldl_cons, List.foldl_nil]; rw [digit_toNat h]; omega
    · have I := ih (n / 10) (by omega)
      rw [decimal_step (by omega)]
      refine ⟨by simp, fun b hb => ?_, fun hb => ?_, ?_⟩
      · rcases List.mem_append.1 hb with hb | hb
        · exact I.digits b hb
        · rw [List.mem_singleton.1 hb, digit_toNat (by omega)]; omega
      · exfalso
        have h1 : (decimal (n / 10)).head? = some 0x30 := by
          revert hb
          cases hd : decimal (n / 10) with
          | nil => exact absurd hd I.some_digit
          | cons b t => simp
        have h2 := I.value
        rw [I.no_leading_zero h1] at h2
        simp at h2
        omega
      · rw [List.foldl_append, I.value]
        simp only [List.foldl_cons, List.foldl_nil]
        rw [digit_toNat (by omega)]
        omega

theorem isDecimal_unique (k : Nat) : ∀ (t : Bytes) (n : Nat), t.length ≤ k → IsDecimal t n → t = decimal n := by
  induction k with
  | zero => intro t n hk H; exact absurd (List.length_eq_zero_iff.1 (by omega)) H.some_digit
  | succ k ih =>
    intro t n hk H
    rcases List.eq_nil_or_concat t with h | ⟨t0, b, h⟩
    · exact absurd h H.some_digit
    · rw [List.concat_eq_append] at h
      subst h
      have hb := H.digits b (by simp)
      have hv := H.value
      rw [List.foldl_append] at hv
      simp only [List.foldl_cons, List.foldl_nil] at hv
      have hbe : b = UInt8.ofNat (0x30 + (b.toNat - 0x30)) := by
        apply UInt8.toNat_inj.1
        rw [digit_toNat (by omega)]
        omega
      by_cases h0 : t0 = []
      · subst h0
        simp only [List.foldl_nil] at hv
        rw [decimal_small (by omega), List.nil_append, hbe]
        rw [show 0x30 + n = 0x30 + (b.toNat - 0x30) by omega]
      · have H0 : IsDecimal t0 (t0.foldl (fun a b => a * 10 + (b.toNat - 0x30)) 0) := by
          refine ⟨h0, fun b hb => H.digits b (by simp [hb]), fun hh => ?_, rfl⟩
          exfalso
          cases t0 with
          | nil => exact h0 rfl
          | cons c t1 =>
            have := H.no_leading_zero (by simpa using hh)
            simp at this
        have hne : t0.foldl (fun a b => a * 10 + (b.toNat - 0x30)) 0 ≠ 0 := by
          intro hz
          have h1 := ih t0 _ (by simp at hk; omega) H0
          rw [hz, show decimal 0 = [0x30] from rfl] at h1
          subst h1
          have := H.no_leading_zero (by simp)
          simp at this
        have h1 := ih t0 _ (by simp at hk; omega) H0
        generalize t0.foldl (fun a b => a * 10 + (b.toNat - 0x30)) 0 = m at *
        rw [decimal_step (by omega), show n / 10 = m by omega, ← h1]
        rw [show n % 10 = b.toNat - 0x30 by omega, ← hbe]

/-! ## C93 -/

/-- C93: `Display` of the numbers is the decimal numeral, and there is only one. -/
theorem C93_decimal (t : Bytes) (n : Nat) : t = decimal n ↔ IsDecimal t n :=
  ⟨fun h => h ▸ isDecimal_decimal n, fun h => isDecimal_unique _ t n (Nat.le_refl _) h⟩

theorem dbgHeader_eq (P : PrintDeps) (h : Header) (len : Bytes)
    (hl : match h.length with | .definite l => IsDecimal len l | .indefinite => len = lit "Indefinite") :
    dbgHeader P h = lit "[" ++ (match h.cls with
      | .universal => P.tag h.tag
      | .contextSpecific => decimal h.tag
      | c => P.cls c ++ lit " " ++ decimal h.tag) ++ lit "]" ++ (if h.constructed = true then lit "+" else []) ++
      lit " " ++ len := by
  obtain ⟨cl, k, tg, ln, raw⟩ := h
  cases ln with
  | definite l =>
    rw [(C93_decimal len l).2 hl]
    cases cl <;> simp only [dbgHeader, ← List.append_assoc]
  | indefinite =>
    rw [show len = lit "Indefinite" from hl]
    cases cl <;> simp only [dbgHeader, ← List.append_assoc]

theorem decimalList_sepBy : ∀ s : Bytes, s ≠ [] → DecimalList s (sepBy (lit ", ") (s.map fun b => decimal b.toNat))
  | [], h => absurd rfl h
  | [b], _ => .one b _ (isDecimal_decimal _)
  | b :: c :: r, _ => .more b _ (c :: r) _ (isDecimal_decimal _) (decimalList_sepBy (c :: r) (by simp))

theorem decimalList_unique {s t u : Bytes} (h1 : DecimalList s t) (h2 : DecimalList s u) : t = u := by
  induction h1 generalizing u with
  | one n t h =>
    cases h2 with
    | one _ _ h' => rw [(C93_decimal t _).2 h, (C93_decimal u _).2 h']
    | more _ _ _ _ _ h' => cases h'
  | more n t ns ts h hs ih =>
    cases h2 with
    | one => cases hs
    | more _ t' _ ts' h' hs' => rw [(C93_decimal t _).2 h, (C93_decimal t' _).2 h', ih hs']

/-- C71: the octets of a UniversalString that is not UTF-32 (up to three octets at its end) are written in decimal,
all of them. -/
theorem C71_universal_numbers (P : PrintDeps) (s : Bytes)
    (h : ¬ ∃ (cs : List Nat) (t : Bytes), (∀ c ∈ cs, IsScalar c) ∧ t.length < 4 ∧ s = cs.flatMap utf32Enc ++ t) :
    ∃ t, DecimalList s t ∧ (∀ u, DecimalList s u → u = t) ∧
      leafText P (.universalString s) = lit "UniversalString([" ++ t ++ lit "]) <error decoding utf32 string>\n" := by
  have hne : s ≠ [] := by
    rintro rfl
    exact h ⟨[], [], by simp, by simp, rfl⟩
  refine ⟨_, decimalList_sepBy s hne, fun u hu => decimalList_unique hu (decimalList_sepBy s hne), ?_⟩
  rw [(C71_universal_exact P s).2 h, debugBytes]
  have e1 : lit "UniversalString([" = lit "UniversalString(" ++ lit "[" := by decide
  have e2 : lit "]) <error decoding utf32 string>\n" = lit "]" ++ lit ") <error decoding utf32 string>\n" := by decide
  rw [e1, e2]
  simp only [List.append_assoc]

example := C71_universal_numbers Tests.P0 [0, 0, 0xD8, 0] surrogate_not_utf32

/-- C93: the text written for a header is the one specified. -/
theorem C93_header (P : PrintDeps) (h : Header) (t : Bytes) : t = dbgHeader P h ↔ HeaderText P h t := by
  constructor
  · rintro rfl
    obtain ⟨len, hl⟩ : ∃ len, match h.length with
        | .definite l => IsDecimal len l
        | .indefinite => len = lit "Indefinite" := by
      cases h.length with
      | definite l => exact ⟨_, isDecimal_decimal l⟩
      | indefinite => exact ⟨_, rfl⟩
    rw [dbgHeader_eq P h len hl]
    refine .mk _ _ ?_ hl
    cases h.cls with
    | universal => rfl
    | contextSpecific => exact isDecimal_decimal _
    | application => exact ⟨_, rfl, isDecimal_decimal _⟩
    | priv => exact ⟨_, rfl, isDecimal_decimal _⟩
  · rintro ⟨t, len, h1, h2⟩
    have ht : t = (match h.cls with
        | .universal => P.tag h.tag
        | .contextSpecific => decimal h.tag
        | c => P.cls c ++ lit " " ++ decimal h.tag) := by
      clear h2
      revert h1
      cases h.cls with
      | universal => exact id
      | contextSpecific => exact (C93_decimal _ _).2
      | application => rintro ⟨n, rfl, h1⟩; rw [(C93_decimal _ _).2 h1]
      | priv => rintro ⟨n, rfl, h1⟩; rw [(C93_decimal _ _).2 h1]
    rw [dbgHeader_eq P h len h2, ← ht]

example := (C93_header Tests.P0 (Header.new .priv true 31 (.definite 1024)) (lit "[PRIVATE 31]+ 1024")).1 (by decide +kernel)

/-- C93: the text written for a value without nested objects is the one specified. -/
theorem C93_value (P : PrintDeps) (p : PrettyBer) (h : Header) (c : Content) (t : Bytes) (ht : ValueText P c t) :
    fmtContent P p h c = t := by
  cases ht with
  | boolean b => cases b <;> rfl
  | enum n t ht => rw [fmtContent, (C93_decimal _ _).2 ht]
  | bitString u s t ht => rw [fmtContent, (C93_decimal _ _).2 ht]
  | quoted k s h1 h2 => cases k <;> first | rfl | exact absurd rfl h1 | exact absurd rfl h2
  | unquoted k s h1 => rcases h1 with rfl | rfl <;> rfl
  | _ => rw [fmtContent]

/-- C93: which values have a text specified: all but end-of-contents, BMPString and UniversalString (C71) and those
with objects inside (C69). -/
theorem C93_value_total (P : PrintDeps) (c : Content) :
    (∃ t, ValueText P c t) ∨ c = .endOfContent ∨ (∃ s, c = .bmpString s ∨ c = .universalString s) ∨
      c = .optionalNone ∨ (∃ o, c = .optionalSome o) ∨ (∃ k t o, c = .tagged k t o) ∨
      ∃ l, c = .sequence l ∨ c = .set l := by
  cases c with
  | boolean b => exact .inl ⟨_, .boolean b⟩
  | integer s => exact .inl ⟨_, .integer s⟩
  | enum n => exact .inl ⟨_, .enum n _ (isDecimal_decimal n)⟩
  | bitString u s => exact .inl ⟨_, .bitString u s _ (isDecimal_decimal _)⟩
  | octetString s => exact .inl ⟨_, .octetString s⟩
  | null => exact .inl ⟨_, .null⟩
  | oid s => exact .inl ⟨_, .oid s⟩
  | relativeOid s => exact .inl ⟨_, .relativeOid s⟩
  | utcTime s => exact .inl ⟨_, .utcTime s⟩
  | generalizedTime s => exact .inl ⟨_, .generalizedTime s⟩
  | unknown a => exact .inl ⟨_, .unknown a⟩
  | str k s =>
    by_cases h : k = .t61 ∨ k = .videotex
    · exact .inl ⟨_, .unquoted k s h⟩
    · exact .inl ⟨_, .quoted k s (fun e => h (.inl e)) (fun e => h (.inr e))⟩
  | endOfContent => simp
  | bmpString s => simp
  | universalString s => simp
  | optionalNone => simp
  | optionalSome o => simp
  | tagged k t o => simp
  | sequence l => simp
  | set l => simp

example : dbgHeader Tests.P0 (Header.new .priv true 31 (.definite 1024)) = lit "[PRIVATE 31]+ 1024" ∧
    dbgHeader Tests.P0 (Header.new .contextSpecific false 0 .indefinite) = lit "[0] Indefinite" := by decide +kernel

/-! ## C94 -/

/-- C94, as one expects from a printer: inputs that are printed the same hold the same number of objects. -/
def C94Statement : Prop :=
  ∀ (D : Deps) (P : PrintDeps) (i i' : Bytes) (o o' : BerObject), parseDer D i = .ok ([], o) →
    parseDer D i' = .ok ([], o') → (o.asPretty 0 2).fmt P = (o'.asPretty 0 2).fmt P →
    (printed o).length = (printed o').length

/-- SEQUENCE of two UTF8Strings `a` and `b`, in DER. -/
def Tests.twoStrings : Bytes := [0x30, 0x06, 0x0c, 0x01, 0x61, 0x0c, 0x01, 0x62]

/-- SEQUENCE of one UTF8String `a")  UTF8String("b`, in DER. -/
def Tests.oneString : Bytes := [0x30, 0x14, 0x0c, 0x12] ++ lit "a\")  UTF8String(\"b"

/-- The text `t` is printed for the DER input `i`, which holds `n` objects. -/
def Tests.prints (i t : Bytes) (n : Nat) : Bool :=
  match parseDer Tests.D0 i with
  | .ok (rem, o) => rem == [] && (o.asPretty 0 2).fmt Tests.P0 == t && (Spec.printed o).length == n
  | _ => false

theorem Tests.prints_spec {i t : Bytes} {n : Nat} (h : Tests.prints i t n = true) :
    ∃ o, parseDer Tests.D0 i = .ok ([], o) ∧ (o.asPretty 0 2).fmt Tests.P0 = t ∧ (Spec.printed o).length = n := by
  unfold Tests.prints at h
  split at h
  · rename_i rem o hp
    simp only [Bool.and_eq_true, beq_iff_eq] at h
    obtain ⟨⟨rfl, h2⟩, h3⟩ := h
    exact ⟨o, hp, h2, h3⟩
  · simp at h

/-- C94 is false: characters of strings are not escaped, so one string can be printed as two. -/
theorem C94_forged_counterexample : ¬ C94Statement := by
  intro h
  obtain ⟨o, h1, h2, h3⟩ := Tests.prints_spec (i := Tests.twoStrings)
    (t := lit "Sequence[\n  UTF8String(\"a\")  UTF8String(\"b\")]") (n := 3) (by decide +kernel)
  obtain ⟨o', h1', h2', h3'⟩ := Tests.prints_spec (i := Tests.oneString)
    (t := lit "Sequence[\n  UTF8String(\"a\")  UTF8String(\"b\")]") (n := 2) (by decide +kernel)
  have := h Tests.D0 Tests.P0 _ _ _ _ h1 h1' (h2.trans h2'.symm)
  omega

theorem lit_name_inj : ∀ k k' : StrKind, lit (strName k) = lit (strName k') → k = k' := by
  intro k k'
  cases k <;> cases k' <;> decide +kernel

theorem name_no_paren (k : StrKind) : ∀ b ∈ lit (strName k), b ≠ 0x28 := by cases k <;> decide +kernel

theorem split_at {α : Type} {x : α} : ∀ {a a' b b' : List α}, (∀ y ∈ a, y ≠ x) → (∀ y ∈ a', y ≠ x) →
    a ++ x :: b = a' ++ x :: b' → a = a' ∧ b = b'
  | [], [], b, b', _, _, h => by simpa using h
  | [], y :: a', b, b', _, h2, h => by
    simp only [List.nil_append, List.cons_append, List.cons.injEq] at h
    exact absurd h.1.symm (h2 y (by simp))
  | y :: a, [], b, b', h1, _, h => by
    simp only [List.nil_append, List.cons_append, List.cons.injEq] at h
    exact absurd h.1 (h1 y (by simp))
  | y :: a, y' :: a', b, b', h1, h2, h => by
    simp only [List.cons_append, List.cons.injEq] at h
    obtain ⟨rfl, h⟩ := h
    obtain ⟨rfl, rfl⟩ := split_at (fun z hz => h1 z (by simp [hz])) (fun z hz => h2 z (by simp [hz])) h
    exact ⟨rfl, rfl⟩

theorem printStr_form (k : StrKind) : ∃ q : Bytes, (∀ s' : Bytes,
    printStr k s' = lit (strName k) ++ 0x28 :: (q ++ s' ++ q ++ [0x29])) := by
  by_cases h : k = .t61 ∨ k = .videotex
  · refine ⟨[], fun s' => ?_⟩
    rcases h with rfl | rfl <;> simp [printStr, strName, lit]
  · refine ⟨[0x22], fun s' => ?_⟩
    cases k <;> first | (simp [printStr, strName, lit]; done) | exact absurd (by simp) h

/-- C94, what holds: one character string, printed alone, can be told from any other.  Missing: several objects
(the counterexample). -/
theorem C94_one_string_partial (P : PrintDeps) (p : PrettyBer) (h h' : Header) (k k' : StrKind) (s s' : Bytes) :
    fmtContent P p h (.str k s) = fmtContent P p h' (.str k' s') ↔ k = k' ∧ s = s' := by
  rw [fmtContent, fmtContent]
  constructor
  · intro he
    obtain ⟨q, h1⟩ := printStr_form k
    obtain ⟨q', h2⟩ := printStr_form k'
    rw [h1, h2] at he
    obtain ⟨e1, e2⟩ := split_at (name_no_paren k) (name_no_paren k') he
    have hk := lit_name_inj k k' e1
    subst hk
    refine ⟨rfl, ?_⟩
    have hq : q = q' := by
      have a := h1 []
      have b := h2 []
      rw [a] at b
      obtain ⟨-, e⟩ := split_at (name_no_paren k) (name_no_paren k) b
      simp only [List.append_nil] at e
      have e := List.append_cancel_right e
      have hl := congrArg List.length e
      simp only [List.length_append] at hl
      exact (List.append_inj e (by omega)).1
    subst hq
    rw [List.append_assoc, List.append_assoc, List.append_assoc, List.append_assoc] at e2
    have e3 := List.append_cancel_left e2
    rw [← List.append_assoc, ← List.append_assoc] at e3
    exact List.append_cancel_right (List.append_cancel_right e3)
  · rintro ⟨rfl, rfl⟩; rfl

/-- C94: enumerated values and booleans can be told apart. -/
theorem C94_values_partial (P : PrintDeps) (p : PrettyBer) (h h' : Header) :
    (∀ n m, fmtContent P p h (.enum n) = fmtContent P p h' (.enum m) → n = m) ∧
    ∀ a b, fmtContent P p h (.boolean a) = fmtContent P p h' (.boolean b) → a = b := by
  constructor
  · intro n m he
    rw [fmtContent, fmtContent] at he
    have := List.append_cancel_left (List.append_cancel_right he)
    have h1 := (isDecimal_decimal n).value
    rw [this, (isDecimal_decimal m).value] at h1
    exact h1.symm
  · intro a b
    cases a <;> cases b <;> simp [fmtContent, lit]

example := (C94_values_partial Tests.P0 (Tests.printed.asPretty 0 2) (Header.new .universal false 10 (.definite 1))
  (Header.new .universal false 10 (.definite 7))).1 300 300 rfl

/-- C94: strings of the types restricted to letters, digits and the marks of PrintableString contain no quotation mark
and no line break, so they cannot imitate anything. -/
theorem C94_printable_safe_partial (D : Deps) (i rem : Bytes) (o o' : BerObject) (hr : Returned D i rem o)
    (hn : Node o' o) (k : StrKind) (s : Bytes) (hk : k = .printable ∨ k = .numeric) (ho : o'.content = .str k s) :
    ∀ b ∈ s, b ≠ 0x22 ∧ b ≠ 0x0a := by
  have h1 := (C24_strings D i rem o o' k s hr hn ho).2.2.2.2
  intro b hb
  have key : ∀ b : UInt8, (b.toNat = 32 ∨ (48 ≤ b.toNat ∧ b.toNat ≤ 57)) ∨
      ((65 ≤ b.toNat ∧ b.toNat ≤ 90) ∨ (97 ≤ b.toNat ∧ b.toNat ≤ 122) ∨
      (48 ≤ b.toNat ∧ b.toNat ≤ 57) ∨ b.toNat ∈ [32, 39, 40, 41, 43, 44, 45, 46, 47, 58, 61, 63]) →
      b ≠ 0x22 ∧ b ≠ 0x0a := by
    intro b h
    constructor
    · rintro rfl; revert h; decide
    · rintro rfl; revert h; decide
  rcases hk with rfl | rfl
  · exact key b (.inr (h1 _ rfl b hb))
  · exact key b (.inl (h1 _ rfl b hb))

example := C94_printable_safe_partial Tests.D0 [0x30, 0x04, 0x13, 0x02, 0x46, 0x52, 9] [9] _
  (.mk ⟨.universal, false, 19, .definite 2, some [0x13]⟩ (.str .printable [0x46, 0x52])) (returned_ber rfl)
  (.seq _ _ _ (List.mem_singleton.2 rfl) .self) .printable _ (.inl rfl) rfl

end Verif
