import Verif.Dump
import Verif.Props.Linear
import Verif.Props.Total
import Verif.Lemmas.Encode
/-!
# The example program dump-der: C77
-/
namespace Verif
open Outcome Spec

namespace Spec

/-- The octets that the program tries to read as objects. -/
def encapsulated : Content → Option Bytes
  | .unknown a => some a.data
  | .octetString s => some s
  | _ => none

/-- `Objects D i os rem`: `os` are the objects read one after the other from `i`, until the end
(`rem = []`) or until `rem` does not start with an object. -/
inductive Objects (D : Deps) : Bytes → List BerObject → Bytes → Prop
  | done : Objects D [] [] []
  | stop (i : Bytes) (e : NomErr BerError) : i ≠ [] → parseBer D i = .err e → Objects D i [] i
  | next (i rem rest : Bytes) (o : BerObject) (os : List BerObject) :
      parseBer D i = .ok (rem, o) → Objects D rem os rest → Objects D i (o :: os) rest

/-- What is written for the data inside one object, with `inner` written for the objects found. -/
def encapLines (constructed : Bool) (d : Nat) (os : List BerObject) (rem : Bytes)
    (inner : List DumpEvent) : List DumpEvent :=
  (if os = [] then [] else [.opens d]) ++ inner ++
    (if constructed = true ∧ rem ≠ [] then [.parseError d] else []) ++
    (if os = [] then [] else [.closes d]) ++
    (if constructed = true ∧ rem ≠ [] then [.remaining rem.length d] else [])

/-- The output for a list of objects with their depths. -/
inductive Dump (D : Deps) : List (BerObject × Nat) → List DumpEvent → Prop
  | nil : Dump D [] []
  | plain (o : BerObject) (d : Nat) (l : List (BerObject × Nat)) (evs : List DumpEvent) :
      encapsulated o.content = none → Dump D l evs → Dump D ((o, d) :: l) (.object o d :: evs)
  | data (o : BerObject) (d : Nat) (l : List (BerObject × Nat)) (s rem : Bytes)
      (os : List BerObject) (inner evs : List DumpEvent) :
      encapsulated o.content = some s → Objects D s os rem →
      Dump D (os.flatMap fun o' => preorder o' (d + 1)) inner → Dump D l evs →
      Dump D ((o, d) :: l)
        (.object o d :: (encapLines o.header.constructed d os rem inner ++ evs))

/-- Number of object lines. -/
def objectLines : List DumpEvent → Nat
  | [] => 0
  | .object _ _ :: l => objectLines l + 1
  | _ :: l => objectLines l

/-- Reading the output with the stack of open braces: braces close in order with the indentation they
were opened with, objects inside braces are indented more than the braces.  `none` is an ill-nested
output. -/
def readNested : List Nat → List DumpEvent → Option (List Nat)
  | st, [] => some st
  | st, .object _ d :: l => if st.all (· < d) then readNested st l else none
  | st, .opens d :: l => if st.all (· < d) then readNested (d :: st) l else none
  | d' :: st, .closes d :: l => if d = d' then readNested st l else none
  | [], .closes _ :: _ => none
  | st, .parseError d :: l => if st.all (· ≤ d) then readNested st l else none
  | st, .remaining _ d :: l => if st.all (· < d) then readNested st l else none

end Spec

/-! ## Helpers -/

theorem objects_unique {D : Deps} {i rem rem' : Bytes} {os os' : List BerObject}
    (h : Objects D i os rem) (h' : Objects D i os' rem') : os = os' ∧ rem = rem' := by
  have nil : ∀ r o, parseBer D [] ≠ .ok (r, o) := by
    intro r o h
    have := (C61_parse_ber D [] r o).1 h
    obtain ⟨e, c, h1, h2, -⟩ := this
    have := framed_length h2
    have h1 := congrArg List.length h1
    simp at h1
    omega
  induction h generalizing os' rem' with
  | done =>
    cases h' with
    | done => exact ⟨rfl, rfl⟩
    | stop _ _ h => exact absurd rfl h
    | next _ _ _ _ _ h => exact absurd h (nil _ _)
  | stop i e hne he =>
    cases h' with
    | done => exact absurd rfl hne
    | stop => exact ⟨rfl, rfl⟩
    | next _ _ _ _ _ h => rw [he] at h; cases h
  | next i r rest o os hp _ ih =>
    cases h' with
    | done => exact absurd hp (nil _ _)
    | stop _ _ _ h => rw [hp] at h; cases h
    | next _ r' _ o' os' h h2 =>
      rw [hp] at h
      cases h
      obtain ⟨rfl, rfl⟩ := ih h2
      exact ⟨rfl, rfl⟩

theorem dump_unique {D : Deps} {l : List (BerObject × Nat)} {evs evs' : List DumpEvent}
    (h : Dump D l evs) (h' : Dump D l evs') : evs = evs' := by
  induction h generalizing evs' with
  | nil => cases h'; rfl
  | plain o d l evs he _ ih =>
    cases h' with
    | plain _ _ _ _ _ h => rw [ih h]
    | data _ _ _ _ _ _ _ _ he' => rw [he] at he'; cases he'
  | data o d l s rem os inner evs he ho _ _ ih1 ih2 =>
    cases h' with
    | plain _ _ _ _ he' => rw [he] at he'; cases he'
    | data _ _ _ _ _ _ _ _ he' ho' h1 h2 =>
      rw [he] at he'
      cases he'
      obtain ⟨rfl, rfl⟩ := objects_unique ho ho'
      rw [ih1 h1, ih2 h2]

theorem Spec.Dump.append {D : Deps} {l l' : List (BerObject × Nat)} {evs evs' : List DumpEvent}
    (h : Dump D l evs) (h' : Dump D l' evs') : Dump D (l ++ l') (evs ++ evs') := by
  induction h with
  | nil => exact h'
  | plain o d l evs he _ ih => exact .plain o d _ _ he ih
  | data o d l s rem os inner evs he ho hi _ _ ih =>
    have := Dump.data o d _ s rem os inner _ he ho hi ih
    simpa using this

theorem encapLoop_spec {D : Deps} {run : BerObject → Nat → Outcome Empty (List DumpEvent)}
    {m d : Nat} (k : Bool)
    (hrun : ∀ i rem o, i.length ≤ m → parseBer D i = .ok (rem, o) →
      ∃ ev, run o (d + 1) = .ok ev ∧ Dump D (preorder o (d + 1)) ev) :
    ∀ (fuel : Nat) (i : Bytes) (first : Bool), i.length ≤ m → i.length < fuel →
      ∃ os rem inner, Objects D i os rem ∧
        Dump D (os.flatMap fun o' => preorder o' (d + 1)) inner ∧
        encapLoop D run k d fuel i first = .ok
          ((if first = true ∧ os ≠ [] then [.opens d] else []) ++ inner ++
              (if k = true ∧ rem ≠ [] then [.parseError d] else []),
            (if k = true ∧ rem ≠ [] then rem else []), first && decide (os = [])) := by
  intro fuel
  induction fuel with
  | zero => intro i _ _ h; omega
  | succ fuel ih =>
    intro i first hm hf
    cases i with
    | nil => exact ⟨[], [], [], .done, .nil, by simp [encapLoop]⟩
    | cons b i =>
      rw [encapLoop]
      have hR := C01_parse_ber_total D (b :: i)
      have hp : parseBerAnyR D maxRecursion (b :: i) = parseBer D (b :: i) := rfl
      rw [hp]
      match hq : parseBer D (b :: i) with
      | .panic => rw [hq] at hR; exact absurd hR (by simp [Outcome.Returns])
      | .diverge => rw [hq] at hR; exact absurd hR (by simp [Outcome.Returns])
      | .err e =>
        refine ⟨[], b :: i, [], .stop _ e (by simp) hq, .nil, ?_⟩
        cases k <;> simp
      | .ok (rem, o) =>
        obtain ⟨ev, h1, h2⟩ := hrun _ _ _ hm hq
        have hlen : 2 + rem.length ≤ (b :: i).length := by
          obtain ⟨e, c, h3, h4, -⟩ := (C61_parse_ber D _ _ _).1 hq
          have := framed_length h4
          rw [h3, List.length_append]
          omega
        obtain ⟨os, rest, inner, h3, h4, h5⟩ := ih rem false (by omega) (by omega)
        refine ⟨o :: os, rest, ev ++ inner, .next _ _ _ _ _ hq h3, ?_, ?_⟩
        · rw [List.flatMap_cons]; exact h2.append h4
        · dsimp only
          rw [h1, ok_bind, h5, ok_bind]
          cases first <;> simp

theorem tryPrint_spec {D : Deps} {run : BerObject → Nat → Outcome Empty (List DumpEvent)}
    {d : Nat} {s : Bytes} (o : BerObject)
    (hrun : ∀ i rem o, i.length ≤ s.length → parseBer D i = .ok (rem, o) →
      ∃ ev, run o (d + 1) = .ok ev ∧ Dump D (preorder o (d + 1)) ev) :
    ∃ os rem inner, Objects D s os rem ∧
        Dump D (os.flatMap fun o' => preorder o' (d + 1)) inner ∧
        tryPrintEncapsulated D run s d o = .ok (encapLines o.header.constructed d os rem inner) := by
  obtain ⟨os, rem, inner, h1, h2, h3⟩ := encapLoop_spec o.header.constructed hrun (s.length + 1) s true
    (Nat.le_refl _) (Nat.lt_succ_self _)
  refine ⟨os, rem, inner, h1, h2, ?_⟩
  rw [tryPrintEncapsulated, h3, ok_bind]
  unfold encapLines
  by_cases h4 : os = [] <;> by_cases h5 : o.header.constructed = true ∧ rem ≠ [] <;>
    simp [h4, h5]

/-- One object of the listing. -/
theorem dumpVisitBer_spec {D : Deps} {run : BerObject → Nat → Outcome Empty (List DumpEvent)}
    {d : Nat} (o : BerObject)
    (hrun : ∀ s, encapsulated o.content = some s → ∀ i rem o, i.length ≤ s.length →
      parseBer D i = .ok (rem, o) →
      ∃ ev, run o (d + 1) = .ok ev ∧ Dump D (preorder o (d + 1)) ev) :
    ∃ ev, dumpVisitBer D run o d = .ok ev ∧ ∀ l evs, Dump D l evs → Dump D ((o, d) :: l) (ev ++ evs) := by
  have key : ∀ s, encapsulated o.content = some s →
      dumpVisitBer D run o d =
        (tryPrintEncapsulated D run s d o >>? fun ev => .ok (.object o d :: ev)) →
      ∃ ev, dumpVisitBer D run o d = .ok ev ∧
        ∀ l evs, Dump D l evs → Dump D ((o, d) :: l) (ev ++ evs) := by
    intro s hs he
    obtain ⟨os, rem, inner, h1, h2, h3⟩ := tryPrint_spec o (hrun s hs)
    rw [he, h3, ok_bind]
    exact ⟨_, rfl, fun l evs h => .data o d l s rem os inner evs hs h1 h2 h⟩
  have plain : encapsulated o.content = none → dumpVisitBer D run o d = .ok [.object o d] →
      ∃ ev, dumpVisitBer D run o d = .ok ev ∧
        ∀ l evs, Dump D l evs → Dump D ((o, d) :: l) (ev ++ evs) :=
    fun h1 h2 => ⟨_, h2, fun l evs h => .plain o d l evs h1 h⟩
  match hc : o.content with
  | .unknown a => exact key a.data (by rw [hc]; rfl) (by rw [dumpVisitBer, hc])
  | .octetString s => exact key s (by rw [hc]; rfl) (by rw [dumpVisitBer, hc])
  | .boolean _ | .integer _ | .bitString _ _ | .null | .enum _ | .oid _
  | .relativeOid _ | .str _ _ | .utcTime _ | .generalizedTime _ | .bmpString _
  | .universalString _ | .optionalNone | .optionalSome _ | .tagged _ _ _ | .endOfContent
  | .sequence _ | .set _ => exact plain (by rw [hc]; rfl) (by rw [dumpVisitBer, hc])

theorem dumpAt_spec (D : Deps) : ∀ (n : Nat) (o : BerObject),
    (∀ o', Node o' o → ∀ s, encapsulated o'.content = some s → s.length < n) →
    ∀ f d, n ≤ f → ∃ evs, dumpAt D (f + 1) o d = .ok evs ∧ Dump D (preorder o d) evs := by
  intro n
  induction n with
  | zero =>
    intro o ho f d _
    exact fold o f d (fun o' hn s hs => absurd (ho o' hn s hs) (by omega))
  | succ n ih =>
    intro o ho f d hf
    refine fold o f d fun o' hn s hs => ?_
    have hs' := ho o' hn s hs
    intro i rem o1 d1 hi hp
    obtain ⟨f, rfl⟩ : ∃ f', f = f' + 1 := ⟨f - 1, by omega⟩
    refine ih o1 ?_ f d1 (by omega)
    intro o2 hn2 s2 hs2
    have hm : Returned D i rem o1 := .inl ⟨_, hp⟩
    obtain ⟨d', hmem⟩ := (C52_visits_nodes o2 o1 0).2 hn2
    have := (C76_depth D i rem o1 o2 0 d' hm hmem).1
    have h3 : payload o2.content = s2.length := by
      generalize o2.content = c at hs2
      cases c <;> simp only [encapsulated, reduceCtorEq, Option.some.injEq] at hs2 <;>
        subst hs2 <;> rfl
    omega
where
  fold (o : BerObject) (f d : Nat)
      (h : ∀ o', Node o' o → ∀ s, encapsulated o'.content = some s →
        ∀ i rem o1 d1, i.length ≤ s.length → parseBer D i = .ok (rem, o1) →
          ∃ ev, dumpAt D f o1 d1 = .ok ev ∧ Dump D (preorder o1 d1) ev) :
      ∃ evs, dumpAt D (f + 1) o d = .ok evs ∧ Dump D (preorder o d) evs := by
    rw [dumpAt, C52_preorder]
    have hN : ∀ e ∈ preorder o d, Node e.1 o := fun e he =>
      (C52_visits_nodes e.1 o d).1 ⟨e.2, he⟩
    generalize preorder o d = l at hN
    have : ∀ (l : List (BerObject × Nat)) (acc : List DumpEvent), (∀ e ∈ l, Node e.1 o) →
        ∃ evs, l.foldl (calls (dumpVisitor D (dumpAt D f))) (.ok acc) = .ok (acc ++ evs) ∧
          Dump D l evs := by
      intro l
      induction l with
      | nil => intro acc _; exact ⟨[], by simp, .nil⟩
      | cons e l ih =>
        intro acc hN
        obtain ⟨ev, h1, h2⟩ := dumpVisitBer_spec (D := D) (run := dumpAt D f) (d := e.2) e.1
          (fun s hs i rem o1 => h e.1 (hN e List.mem_cons_self) s hs i rem o1 _)
        obtain ⟨evs, h3, h4⟩ := ih (acc ++ ev) fun e he => hN e (List.mem_cons_of_mem _ he)
        refine ⟨ev ++ evs, ?_, h2 _ _ h4⟩
        rw [List.foldl_cons]
        have : calls (dumpVisitor D (dumpAt D f)) (.ok acc) e = .ok (acc ++ ev) := by
          simp only [calls, dumpVisitor, ok_bind, h1]
        rw [this, h3]
        simp
    obtain ⟨evs, h1, h2⟩ := this l [] hN
    exact ⟨evs, by simpa using h1, h2⟩

theorem encapsulated_payload {c : Content} {s : Bytes} (h : encapsulated c = some s) :
    payload c = s.length ∧ Verbatim c = some s := by
  cases c <;> simp only [encapsulated, reduceCtorEq, Option.some.injEq] at h <;> subst h <;>
    exact ⟨rfl, rfl⟩

theorem objects_mem {D : Deps} {s rem : Bytes} {os : List BerObject} (h : Objects D s os rem) :
    ∀ o ∈ os, ∃ pre i r, s = pre ++ i ∧ parseBer D i = .ok (r, o) := by
  induction h with
  | done => simp
  | stop => simp
  | next i rem rest o os hp _ ih =>
    intro o' ho'
    rcases List.mem_cons.1 ho' with rfl | ho'
    · exact ⟨[], i, rem, rfl, hp⟩
    · obtain ⟨pre, i', r, rfl, h⟩ := ih o' ho'
      obtain ⟨e, c, rfl, -⟩ := (C61_parse_ber D _ _ _).1 hp
      exact ⟨e ++ pre, i', r, by simp, h⟩

theorem objects_size {D : Deps} {s rem : Bytes} {os : List BerObject} (h : Objects D s os rem) (d : Nat) :
    totalSize (os.flatMap fun o => preorder o d) + rem.length ≤ s.length := by
  induction h with
  | done => simp [totalSize]
  | stop => simp [totalSize]
  | next i rem rest o os hp _ ih =>
    rw [List.flatMap_cons, totalSize_append]
    have := C76_size D i rem o d (.inl ⟨_, hp⟩)
    omega

theorem mem_encapLines {k : Bool} {d : Nat} {os : List BerObject} {rem : Bytes}
    {inner : List DumpEvent} {o : BerObject} {d' : Nat}
    (h : .object o d' ∈ encapLines k d os rem inner) : .object o d' ∈ inner := by
  unfold encapLines at h
  simp only [List.mem_append] at h
  rcases h with (((h | h) | h) | h) | h
  · split at h <;> simp at h
  · exact h
  · split at h <;> simp at h
  · split at h <;> simp at h
  · split at h <;> simp at h

theorem objectLines_append (l l' : List DumpEvent) :
    objectLines (l ++ l') = objectLines l + objectLines l' := by
  induction l with
  | nil => simp [objectLines]
  | cons e l ih =>
    cases e <;> simp only [List.cons_append, objectLines, ih] <;> omega

theorem objectLines_encap (k : Bool) (d : Nat) (os : List BerObject) (rem : Bytes)
    (inner : List DumpEvent) : objectLines (encapLines k d os rem inner) = objectLines inner := by
  unfold encapLines
  simp only [objectLines_append]
  by_cases h4 : os = [] <;> by_cases h5 : k = true ∧ rem ≠ [] <;> simp [h4, h5, objectLines]

/-! ## C77 -/

/-- C77: on an object returned by a parser the program writes exactly the specified lines (whatever the
fuel of the model, when larger than the input): it terminates without panic. -/
theorem C77_exact (D : Deps) (i rem : Bytes) (o : BerObject) (d f : Nat) (hr : Returned D i rem o)
    (hf : i.length < f) :
    ∃ evs, dumpAt D f o d = .ok evs ∧ ∀ evs', Dump D (preorder o d) evs' ↔ evs' = evs := by
  obtain ⟨f, rfl⟩ : ∃ f', f = f' + 1 := ⟨f - 1, by omega⟩
  obtain ⟨evs, h1, h2⟩ := dumpAt_spec D i.length o (fun o' hn s hs => by
    obtain ⟨d', hm⟩ := (C52_visits_nodes o' o 0).2 hn
    have := (C76_depth D i rem o o' 0 d' hr hm).1
    rw [(encapsulated_payload hs).1] at this
    omega) f d (by omega)
  exact ⟨evs, h1, fun evs' => ⟨fun h => dump_unique h h2, fun h => h ▸ h2⟩⟩

example := C77_exact Tests.D0 [0x30, 0x02, 0x05, 0x00, 9] [9] _ 1 6 (returned_ber rfl) (by decide)

theorem dump_of {D : Deps} {i rem : Bytes} {o : BerObject} {d f : Nat} {evs : List DumpEvent} (hr : Returned D i rem o)
    (hf : i.length < f) (h : dumpAt D f o d = .ok evs) : Dump D (preorder o d) evs := by
  obtain ⟨evs', h1, h2⟩ := C77_exact D i rem o d f hr hf
  rw [h] at h1
  cases h1
  exact (h2 evs).2 rfl

/-- C77: `main` on the contents of a file panics exactly when the file does not start with an object;
otherwise it writes the lines of that object and warns about exactly the octets after it. -/
theorem C77_main (D : Deps) (ber : Bool) (data : Bytes) :
    (∃ e, (if ber then parseBer D data else parseDer D data) = .err e ∧
      dumpMain D ber data = .panic) ∨
    ∃ rem o evs, (if ber then parseBer D data else parseDer D data) = .ok (rem, o) ∧
      dumpMain D ber data = .ok (evs, rem) ∧ Dump D (preorder o 1) evs := by
  have hR : (if ber then parseBer D data else parseDer D data).Returns := by
    cases ber
    · exact C02_parse_der_total D data
    · exact C01_parse_ber_total D data
  unfold dumpMain
  match hq : (if ber then parseBer D data else parseDer D data) with
  | .panic => rw [hq] at hR; exact absurd hR (by simp [Outcome.Returns])
  | .diverge => rw [hq] at hR; exact absurd hR (by simp [Outcome.Returns])
  | .err e => exact .inl ⟨e, rfl, rfl⟩
  | .ok (rem, o) =>
    have hr : Returned D data rem o := by
      cases ber
      · exact .inr (.inl ⟨_, hq⟩)
      · rw [if_pos rfl] at hq; exact .inl ⟨_, hq⟩
    obtain ⟨evs, h1, h2⟩ := C77_exact D data rem o 1 (data.length + 1) hr (by omega)
    refine .inr ⟨rem, o, evs, rfl, ?_, (h2 evs).2 rfl⟩
    dsimp only
    rw [h1, ok_bind]

/-- C77: braces are balanced, and objects inside braces are indented more than the braces. -/
theorem C77_nested (D : Deps) (l : List (BerObject × Nat)) (evs : List DumpEvent) (st : List Nat)
    (h : Dump D l evs) (hl : ∀ e ∈ l, ∀ x ∈ st, x < e.2) : readNested st evs = some st := by
  have gen : ∀ more, readNested st (evs ++ more) = readNested st more := by
    induction h generalizing st with
    | nil => intro more; rfl
    | plain o d l evs _ _ ih =>
      intro more
      have h1 : st.all (· < d) = true := by
        simp only [List.all_eq_true, decide_eq_true_eq]
        exact hl (o, d) List.mem_cons_self
      rw [List.cons_append, readNested, if_pos h1]
      exact ih st (fun e he => hl e (List.mem_cons_of_mem _ he)) more
    | data o d l s rem os inner evs hs ho _ _ ih1 ih2 =>
      intro more
      have h0 : ∀ x ∈ st, x < d := hl (o, d) List.mem_cons_self
      have h1 : st.all (· < d) = true := by
        simp only [List.all_eq_true, decide_eq_true_eq]
        exact h0
      have h2 : ∀ st' : List Nat, (∀ x ∈ st', x ≤ d) → st'.all (· ≤ d) = true := by
        intro st' h
        simp only [List.all_eq_true, decide_eq_true_eq]
        exact h
      have h3 : ∀ e ∈ os.flatMap (fun o' => preorder o' (d + 1)), d < e.2 := by
        intro e he
        obtain ⟨o', ho', he⟩ := List.mem_flatMap.1 he
        have := (C52_depth_range o' (d + 1) e he).1
        omega
      rw [List.cons_append, readNested, if_pos h1, List.append_assoc]
      have h4 := ih2 st (fun e he => hl e (List.mem_cons_of_mem _ he)) more
      rw [← h4]
      generalize evs ++ more = tl
      unfold encapLines
      have tail : ∀ st', (∀ x ∈ st', x ≤ d) → ∀ m, readNested st'
          ((if o.header.constructed = true ∧ rem ≠ [] then [DumpEvent.parseError d] else []) ++ m) =
          readNested st' m := by
        intro st' hst m
        split
        · rw [List.cons_append, readNested, if_pos (h2 st' hst), List.nil_append]
        · rfl
      have rest : readNested st
          ((if o.header.constructed = true ∧ rem ≠ [] then [DumpEvent.remaining rem.length d]
            else []) ++ tl) = readNested st tl := by
        split
        · rw [List.cons_append, readNested, if_pos h1, List.nil_append]
        · rfl
      by_cases hos : os = []
      · subst hos
        simp only [List.append_assoc, if_true, List.nil_append]
        rw [ih1 st (by simp), tail st (fun x hx => Nat.le_of_lt (h0 x hx)), rest]
      · rw [if_neg hos, if_neg hos]
        simp only [List.append_assoc, List.cons_append, List.nil_append]
        rw [readNested, if_pos h1, ih1 (d :: st) ?_, tail, readNested, if_pos rfl, rest]
        · intro x hx
          rcases List.mem_cons.1 hx with rfl | hx
          · exact Nat.le_refl _
          · exact Nat.le_of_lt (h0 x hx)
        · intro e he x hx
          have := h3 e he
          rcases List.mem_cons.1 hx with rfl | hx
          · exact this
          · have := h0 x hx; omega
  have := gen []
  rw [List.append_nil] at this
  rw [this, readNested]

/-- An OCTET STRING that holds a NULL, three levels below others. -/
example := C77_nested Tests.D0 _ _ [2, 1, 0] (dump_of (d := 3) (f := 7) (i := [0x04, 0x02, 0x05, 0x00, 9]) (rem := [9])
  (returned_ber (D := Tests.D0) rfl) (by decide) rfl) (by simp [preorder, preorderC])

/-- C77: every printed object, at any level of encapsulation, is one element found in the input. -/
theorem C77_origin (D : Deps) (i rem : Bytes) (o o' : BerObject) (d d' : Nat) (evs : List DumpEvent)
    (hr : Returned D i rem o) (h : Dump D (preorder o d) evs) (hm : .object o' d' ∈ evs) :
    ∃ pre e post c, i = pre ++ e ++ post ++ rem ∧ Framed 50 e o'.header c := by
  have placed : ∀ (x y : Bytes) (p : BerObject), Returned D x y p → ∀ q, Node q p →
      ∃ pre e post c, x = pre ++ e ++ post ++ y ∧ Framed 50 e q.header c ∧
        ∀ s, encapsulated q.content = some s → c = s := by
    intro x y p hp q hq
    cases hs : encapsulated q.content with
    | none =>
      obtain ⟨pre, e, post, c, h1, h2, -⟩ := returned_node hp hq
      exact ⟨pre, e, post, c, h1, h2, by simp⟩
    | some s =>
      obtain ⟨pre, e, post, h1, h2⟩ := C26_verbatim D x y p q s hp hq (encapsulated_payload hs).2
      exact ⟨pre, e, post, s, h1, h2, by simp⟩
  have gen : ∀ l evs, Dump D l evs → (∀ q ∈ l, ∃ pre e post c, i = pre ++ e ++ post ++ rem ∧
        Framed 50 e q.1.header c ∧ ∀ s, encapsulated q.1.content = some s → c = s) →
      ∀ o' d', .object o' d' ∈ evs →
        ∃ pre e post c, i = pre ++ e ++ post ++ rem ∧ Framed 50 e o'.header c := by
    intro l evs h
    induction h with
    | nil => simp
    | plain o d l evs _ _ ih =>
      intro hl o' d' hm
      rcases List.mem_cons.1 hm with hm | hm
      · cases hm
        obtain ⟨pre, e, post, c, h1, h2, -⟩ := hl _ List.mem_cons_self
        exact ⟨pre, e, post, c, h1, h2⟩
      · exact ih (fun q hq => hl q (List.mem_cons_of_mem _ hq)) o' d' hm
    | data o d l s rem' os inner evs hs ho _ _ ih1 ih2 =>
      intro hl o' d' hm
      obtain ⟨pre, e, post, c, h1, h2, h3⟩ := hl _ List.mem_cons_self
      rcases List.mem_cons.1 hm with hm | hm
      · cases hm
        exact ⟨pre, e, post, c, h1, h2⟩
      · rcases List.mem_append.1 hm with hm | hm
        · refine ih1 ?_ o' d' (mem_encapLines hm)
          intro q hq
          obtain ⟨p, hp, hq⟩ := List.mem_flatMap.1 hq
          obtain ⟨pre', x, y, hx, hp⟩ := objects_mem ho p hp
          obtain ⟨pre2, e2, post2, c2, h4, h5, h6⟩ := placed x y p (.inl ⟨_, hp⟩) q.1
            ((C52_visits_nodes q.1 p (d + 1)).1 ⟨q.2, hq⟩)
          obtain rfl := h3 s hs
          obtain ⟨hb, post3, -, he, -⟩ := framed_infix h2
          refine ⟨pre ++ hb ++ pre' ++ pre2, e2, post2 ++ y ++ post3 ++ post, c2, ?_, h5, h6⟩
          rw [h1, he, hx, h4]
          simp
        · exact ih2 (fun q hq => hl q (List.mem_cons_of_mem _ hq)) o' d' hm
  refine gen _ _ h (fun q hq => ?_) o' d' hm
  exact placed i rem o hr q.1 ((C52_visits_nodes q.1 o d).1 ⟨q.2, hq⟩)

example := C77_origin Tests.D0 [0x04, 0x02, 0x05, 0x00, 9] [9] _ (.mk (Tests.h .universal false 5 0 [5]) .null) 1 2 _
  (returned_ber rfl) (dump_of (f := 7) (i := [0x04, 0x02, 0x05, 0x00, 9]) (rem := [9]) (returned_ber (D := Tests.D0) rfl) (by decide) rfl)
  (.tail _ (.tail _ (.head _)))

/-- C77: at most one object line for every two octets consumed. -/
theorem C77_linear (D : Deps) (i rem : Bytes) (o : BerObject) (d : Nat) (evs : List DumpEvent)
    (hr : Returned D i rem o) (h : Dump D (preorder o d) evs) :
    2 * objectLines evs + rem.length ≤ i.length := by
  have gen : ∀ l evs, Dump D l evs → 2 * objectLines evs ≤ totalSize l := by
    intro l evs h
    induction h with
    | nil => simp [objectLines]
    | plain o d l evs _ _ ih =>
      simp only [objectLines, totalSize, List.map_cons, List.sum_cons] at *
      omega
    | data o d l s rem' os inner evs hs ho _ _ ih1 ih2 =>
      have h1 := objects_size ho (d + 1)
      have h2 := (encapsulated_payload hs).1
      rw [objectLines, objectLines_append, objectLines_encap]
      have : totalSize ((o, d) :: l) = 2 + payload o.content + totalSize l := by
        simp [totalSize]
      omega
  have := gen _ _ h
  have := C76_size D i rem o d hr
  omega

example := C77_linear Tests.D0 [0x04, 0x02, 0x05, 0x00, 9] [9] _ 1 _
  (returned_ber rfl) (dump_of (f := 7) (i := [0x04, 0x02, 0x05, 0x00, 9]) (rem := [9]) (returned_ber (D := Tests.D0) rfl) (by decide) rfl)

/-- C77: indentation is bounded by the length of the input only (see `C77_depth_unlimited`). -/
theorem C77_depth (D : Deps) (i rem : Bytes) (o o' : BerObject) (d d' : Nat) (evs : List DumpEvent)
    (hr : Returned D i rem o) (h : Dump D (preorder o d) evs) (hm : .object o' d' ∈ evs) :
    d ≤ d' ∧ 2 * (d' - d) + 2 + rem.length ≤ i.length := by
  have gen : ∀ n l evs, Dump D l evs →
      (∀ q ∈ l, 2 * (q.2 - d) + 2 + payload q.1.content ≤ n ∧ d ≤ q.2) →
      ∀ o' d', .object o' d' ∈ evs → d ≤ d' ∧ 2 * (d' - d) + 2 ≤ n := by
    intro n l evs h
    induction h with
    | nil => simp
    | plain o d1 l evs _ _ ih =>
      intro hl o' d' hm
      rcases List.mem_cons.1 hm with hm | hm
      · cases hm
        have := hl _ List.mem_cons_self
        dsimp only at this
        omega
      · exact ih (fun q hq => hl q (List.mem_cons_of_mem _ hq)) o' d' hm
    | data o d1 l s rem' os inner evs hs ho _ _ ih1 ih2 =>
      intro hl o' d' hm
      have h1 := hl _ List.mem_cons_self
      dsimp only at h1
      rw [(encapsulated_payload hs).1] at h1
      rcases List.mem_cons.1 hm with hm | hm
      · cases hm
        omega
      · rcases List.mem_append.1 hm with hm | hm
        · refine ih1 ?_ o' d' (mem_encapLines hm)
          intro q hq
          obtain ⟨p, hp, hq⟩ := List.mem_flatMap.1 hq
          obtain ⟨pre', x, y, hx, hp⟩ := objects_mem ho p hp
          have h2 := C76_depth D x y p q.1 (d1 + 1) q.2 (.inl ⟨_, hp⟩) hq
          have h3 := congrArg List.length hx
          rw [List.length_append] at h3
          omega
        · exact ih2 (fun q hq => hl q (List.mem_cons_of_mem _ hq)) o' d' hm
  have := gen (i.length - rem.length) _ _ h (fun q hq => by
    have := C76_depth D i rem o q.1 d q.2 hr hq
    omega) o' d' hm
  omega

example := C77_depth Tests.D0 [0x04, 0x02, 0x05, 0x00, 9] [9] _ (.mk (Tests.h .universal false 5 0 [5]) .null) 1 2 _
  (returned_ber rfl) (dump_of (f := 7) (i := [0x04, 0x02, 0x05, 0x00, 9]) (rem := [9]) (returned_ber (D := Tests.D0) rfl) (by decide) rfl)
  (.tail _ (.tail _ (.head _)))

namespace Tests

/-- OCTET STRINGs inside each other, `n` levels, around a NULL. -/
def nestedOctets : Nat → Bytes
  | 0 => [0x05, 0x00]
  | n + 1 => 0x04 :: encodeLength (.definite (nestedOctets n).length) ++ nestedOctets n

end Tests

theorem nestedOctets_length (n : Nat) : (Tests.nestedOctets n).length ≤ 10 * n + 2 := by
  have hz : ∀ l : Bytes, (skipZeroes l).length ≤ l.length := by
    intro l
    exact (List.dropWhile_sublist _).length_le
  have he : ∀ m, (encodeLength (.definite m)).length ≤ 9 := by
    intro m
    rw [encodeLength]
    split
    · simp
    · have := hz (toBeBytes 8 m)
      have h8 : (toBeBytes 8 m).length = 8 := toBeBytes_length 8 m
      simp only [List.length_cons]
      omega
  induction n with
  | zero => simp [Tests.nestedOctets]
  | succ n ih =>
    rw [Tests.nestedOctets, List.length_append, List.length_cons]
    have := he (Tests.nestedOctets n).length
    omega

theorem nestedOctets_parse (D : Deps) (n : Nat) (hn : n < 2 ^ 60) :
    ∃ h, parseBer D (Tests.nestedOctets (n + 1)) =
      .ok ([], .mk h (.octetString (Tests.nestedOctets n))) := by
  have hl := nestedOctets_length n
  generalize hm : Tests.nestedOctets n = c at hl
  refine ⟨⟨.universal, false, 4, .definite c.length, some [0x04]⟩, (C61_parse_ber D _ _ _).2
    ⟨0x04 :: encodeLength (.definite c.length) ++ c, c, by rw [Tests.nestedOctets, hm]; simp,
      .definite _ _ _ ?_ rfl, .leaf 49 _ _ _ ⟨rfl, rfl, rfl⟩⟩⟩
  exact berHeader_encode (h := ⟨.universal, false, 4, .definite c.length, none⟩) (by simp)
    (fun k hk => by cases hk; omega) (by simp)

/-- C77: no bound on the recursion of the program: OCTET STRINGs nested `n` levels deep give objects at
depth `n + 1`, far beyond MAX_RECURSION, from an input of at most `10 * n + 2` octets. -/
theorem C77_depth_unlimited (D : Deps) (n : Nat) (hn : n < 2 ^ 60) :
    ∃ i evs o, i.length ≤ 10 * n + 2 ∧ dumpMain D true i = .ok (evs, []) ∧
      .object o (n + 1) ∈ evs := by
  have base : ∃ h, parseBer D [0x05, 0x00] = .ok ([], .mk h .null) := ⟨_, rfl⟩
  have key : ∀ n, n < 2 ^ 60 → ∃ o, parseBer D (Tests.nestedOctets n) = .ok ([], o) ∧
      ∀ d evs, Dump D (preorder o d) evs → ∃ o', .object o' (d + n) ∈ evs := by
    intro n
    induction n with
    | zero =>
      intro _
      obtain ⟨h, hb⟩ := base
      refine ⟨_, hb, fun d evs hd => ⟨.mk h .null, ?_⟩⟩
      have hd : Dump D [(.mk h .null, d)] evs := hd
      cases hd with
      | plain => simp
      | data _ _ _ _ _ _ _ _ hs => simp [encapsulated, BerObject.content] at hs
    | succ n ih =>
      intro hn
      obtain ⟨h, hp⟩ := nestedOctets_parse D n (by omega)
      obtain ⟨o, h1, h2⟩ := ih (by omega)
      refine ⟨_, hp, fun d evs hd => ?_⟩
      have hd : Dump D [(.mk h (.octetString (Tests.nestedOctets n)), d)] evs := hd
      cases hd with
      | plain _ _ _ _ hs => simp [encapsulated, BerObject.content] at hs
      | data _ _ _ s rem os inner evs hs ho hi _ =>
        simp only [encapsulated, BerObject.content, Option.some.injEq] at hs
        subst hs
        obtain ⟨rfl, rfl⟩ := objects_unique ho (.next _ _ _ _ _ h1 .done)
        rw [List.flatMap_cons, List.flatMap_nil, List.append_nil] at hi
        obtain ⟨o', ho'⟩ := h2 _ _ hi
        refine ⟨o', List.mem_cons_of_mem _ (List.mem_append_left _ ?_)⟩
        unfold encapLines
        simp only [List.mem_append]
        refine .inl (.inl (.inl (.inr ?_)))
        have : d + 1 + n = d + (n + 1) := by omega
        rw [← this]
        exact ho'
  obtain ⟨o, h1, h2⟩ := key n hn
  rcases C77_main D true (Tests.nestedOctets n) with ⟨e, h3, -⟩ | ⟨rem, o2, evs, h3, h4, h5⟩
  · rw [if_pos rfl, h1] at h3; cases h3
  · rw [if_pos rfl, h1] at h3
    cases h3
    obtain ⟨o', ho'⟩ := h2 1 evs h5
    exact ⟨_, evs, o', nestedOctets_length n, h4, by rw [Nat.add_comm n 1]; exact ho'⟩

/-- A SEQUENCE with an OCTET STRING holding a NULL and a stray octet, and a constructed `[0]` holding an
incomplete element; the file has one more octet. -/
example : ∃ o1 o2 o3 o4, dumpMain Tests.D0 true
      [0x30, 0x08, 0x04, 0x03, 0x05, 0x00, 0xff, 0xa0, 0x01, 0x02, 0xbb] =
    .ok ([.object o1 1, .object o2 2, .opens 2, .object o3 3, .closes 2, .object o4 2, .parseError 2,
      .remaining 1 2], [0xbb]) ∧ o3.content = .null := ⟨_, _, _, _, rfl, rfl⟩

end Verif
