import Verif.Props.Dump
import Verif.Props.Text
/-!
# The output of the example program: C100
-/
namespace Verif
open Outcome Spec

namespace Spec

/-- A hexadecimal digit, lower case. -/
def HexDigit (b : UInt8) (v : Nat) : Prop :=
  (v < 10 ∧ b.toNat = 0x30 + v) ∨ (10 ≤ v ∧ v < 16 ∧ b.toNat = 0x61 + (v - 10))

/-- `t` is the hexadecimal numeral of the octet `n`, without leading zero. -/
def IsHex (t : Bytes) (n : UInt8) : Prop :=
  (∃ a, t = [a] ∧ HexDigit a n.toNat) ∨
    ∃ a b x y, t = [a, b] ∧ HexDigit a x ∧ HexDigit b y ∧ x ≠ 0 ∧ n.toNat = 16 * x + y

/-- Octets in hexadecimal with `, ` between. -/
inductive HexList : Bytes → Bytes → Prop
  | one (n : UInt8) (t : Bytes) : IsHex t n → HexList [n] t
  | more (n : UInt8) (t : Bytes) (ns ts : Bytes) : IsHex t n → HexList ns ts →
      HexList (n :: ns) (t ++ lit ", " ++ ts)

/-- An output line.  Values other than SEQUENCE and SET are described by C93 and C71. -/
inductive OutLine (P : PrintDeps) : DumpEvent → Bytes → Prop
  | list (h : Header) (c : Content) (l : List BerObject) (d : Nat) (hd : Bytes) : c = .sequence l ∨ c = .set l →
      HeaderText P h hd →
      OutLine P (.object (.mk h c) d) (List.replicate (2 * d) 0x20 ++ hd ++ lit " " ++ listName h ++ lit "\n")
  | value (h : Header) (c : Content) (d : Nat) (hd : Bytes) : (∀ l, c ≠ .sequence l ∧ c ≠ .set l) →
      HeaderText P h hd →
      OutLine P (.object (.mk h c) d) (List.replicate (2 * d) 0x20 ++ hd ++ lit " " ++ leafText P c ++ lit "\n")
  | opens (d : Nat) : OutLine P (.opens d) (List.replicate (2 * d) 0x20 ++ lit "encapsulates {\n")
  | closes (d : Nat) : OutLine P (.closes d) (List.replicate (2 * d) 0x20 ++ lit "}\n")
  | parseError (d : Nat) : OutLine P (.parseError d) []
  | remaining (n d : Nat) (t u : Bytes) : IsDecimal t n → IsDecimal u d →
      OutLine P (.remaining n d) (lit "WARNING: " ++ t ++ lit " remaining bytes at depth " ++ u ++ lit "\n")

/-- All lines. -/
inductive OutLines (P : PrintDeps) : List DumpEvent → Bytes → Prop
  | nil : OutLines P [] []
  | cons (e : DumpEvent) (t : Bytes) (es : List DumpEvent) (ts : Bytes) : OutLine P e t → OutLines P es ts →
      OutLines P (e :: es) (t ++ ts)

/-- The output for one file: it starts with an object, the lines are those of its dump, and what follows the
object is reported. -/
def FileText (P : PrintDeps) (D : Deps) (ber : Bool) (data t : Bytes) : Prop :=
  ∃ rem o evs lines, (if ber then parseBer D data else parseDer D data) = .ok (rem, o) ∧
    Dump D (preorder o 1) evs ∧ OutLines P evs lines ∧
    ((rem = [] ∧ t = lines) ∨ ∃ hex, HexList rem hex ∧
      t = lines ++ lit "WARNING: extra bytes after BER/DER object:\n[" ++ hex ++ lit "]\n")

/-- An option of the program. -/
def isOption (a : String) : Bool := a == "--ber" || a == "--der"

/-- The files of the command line, each with the mode given by the last option before it (DER without option). -/
def files (args : List String) : List (Bool × String) :=
  (List.range args.length).filterMap fun k => match args[k]? with
    | some a => if isOption a then none
      else some (((args.take k).filter isOption).getLast? == some "--ber", a)
    | none => none

/-- The output for some files. -/
inductive FilesText (P : PrintDeps) (D : Deps) (read : String → Option Bytes) :
    List (Bool × String) → Bytes → Prop
  | nil : FilesText P D read [] []
  | cons (ber : Bool) (f : String) (data t : Bytes) (fs : List (Bool × String)) (ts : Bytes) :
      read f = some data → FileText P D ber data t → FilesText P D read fs ts →
      FilesText P D read ((ber, f) :: fs) (t ++ ts)

/-- The program cannot handle the file. -/
def Refused (D : Deps) (read : String → Option Bytes) (ber : Bool) (f : String) : Prop :=
  read f = none ∨ ∃ data e, read f = some data ∧ (if ber then parseBer D data else parseDer D data) = .err e

end Spec

/-! ## Hexadecimal -/

theorem hexDigit_spec (v : Nat) (h : v < 16) : HexDigit (hexDigit v) v := by
  unfold hexDigit HexDigit
  split <;> rw [UInt8.toNat_ofNat'] <;> omega

theorem lowerHex_spec (n : UInt8) : IsHex (lowerHex n) n := by
  have hn := n.toNat_lt
  unfold lowerHex
  split
  · exact .inl ⟨_, rfl, hexDigit_spec _ (by assumption)⟩
  · exact .inr ⟨_, _, n.toNat / 16, n.toNat % 16, rfl, hexDigit_spec _ (by omega), hexDigit_spec _ (by omega),
      by omega, by omega⟩

theorem hexDigit_unique {a b : UInt8} {v : Nat} (h1 : HexDigit a v) (h2 : HexDigit b v) : a = b := by
  apply UInt8.toNat.inj
  unfold HexDigit at h1 h2
  omega

theorem isHex_unique {s t : Bytes} {n : UInt8} (h1 : IsHex s n) (h2 : IsHex t n) : s = t := by
  have lt : ∀ {a : UInt8} {v : Nat}, HexDigit a v → v < 16 := by
    intro a v h; unfold HexDigit at h; omega
  rcases h1 with ⟨a, rfl, h1⟩ | ⟨a, b, x, y, rfl, h1, h3, h5, h7⟩ <;>
    rcases h2 with ⟨c, rfl, h2⟩ | ⟨c, d, z, w, rfl, h2, h4, h6, h8⟩
  · rw [hexDigit_unique h1 h2]
  · have := lt h1; have := lt h4; omega
  · have := lt h2; have := lt h3; omega
  · have := lt h3; have := lt h4
    obtain rfl : x = z := by omega
    obtain rfl : y = w := by omega
    rw [hexDigit_unique h1 h2, hexDigit_unique h3 h4]

theorem hexList_sepBy : ∀ rem : Bytes, rem ≠ [] → HexList rem (sepBy (lit ", ") (rem.map lowerHex))
  | [], h => absurd rfl h
  | [n], _ => .one n _ (lowerHex_spec n)
  | n :: m :: rem, _ => .more n _ _ _ (lowerHex_spec n) (hexList_sepBy (m :: rem) (by simp))

theorem hexList_unique {rem s t : Bytes} (h1 : HexList rem s) (h2 : HexList rem t) : s = t := by
  induction h1 generalizing t with
  | one n s hs =>
    cases h2 with
    | one _ _ ht => exact isHex_unique hs ht
    | more _ _ _ _ _ hn => cases hn
  | more n s ns ts hs hn ih =>
    cases h2 with
    | one _ _ ht => cases hn
    | more _ _ _ _ ht hm => rw [isHex_unique hs ht, ih hm]

theorem hexList_ne {rem s : Bytes} (h : HexList rem s) : rem ≠ [] := by cases h <;> simp

/-! ## Lines -/

/-- No object is printed inside the text of this content. -/
def plainContent : Content → Prop
  | .optionalSome _ | .optionalNone | .tagged _ _ _ => False
  | _ => True

theorem plain_of_returned {D : Deps} {i rem : Bytes} {o o' : BerObject} (hr : Returned D i rem o) (hn : Node o' o) :
    plainContent o'.content := by
  obtain ⟨_, _, _, c, -, -, h | ⟨hd, d, -, -, -, hD⟩⟩ := returned_node hr hn
  · rw [h]; trivial
  · revert hD
    generalize o'.content = x
    intro hD
    cases hD with
    | leaf _ _ _ _ hL => cases x <;> first | trivial | exact absurd hL id
    | _ => trivial

theorem outLine_object (P : PrintDeps) (o : BerObject) (d : Nat) (h : plainContent o.content) :
    OutLine P (.object o d) (DumpEvent.stdout P (.object o d)) := by
  obtain ⟨hd, c⟩ := o
  have hh : HeaderText P hd (dbgHeader P hd) := (C93_header P hd _).1 rfl
  have key : ∀ x, (∀ l, c ≠ .sequence l ∧ c ≠ .set l) → fmtContent P ⟨.mk hd c, d * 2, 2, [.showHeader]⟩ hd c = x →
      x = leafText P c → OutLine P (.object (.mk hd c) d) (DumpEvent.stdout P (.object (.mk hd c) d)) := by
    intro x hl hx hy
    have := OutLine.value (P := P) hd c d (dbgHeader P hd) hl hh
    unfold DumpEvent.stdout DumpEvent.objectText PrettyBer.fmt
    simp only [fmtObj]
    rw [intro_eq, hx, hy]
    simpa [Nat.mul_comm, List.append_assoc] using this
  have lst : ∀ l, c = .sequence l ∨ c = .set l →
      OutLine P (.object (.mk hd c) d) (DumpEvent.stdout P (.object (.mk hd c) d)) := by
    intro l hl
    have := OutLine.list (P := P) hd c l d (dbgHeader P hd) hl hh
    have e : DumpEvent.stdout P (.object (.mk hd c) d) =
      PrettyBer.fmt P ⟨.mk hd c, d * 2, 2, [.showHeader]⟩ ++ lit "\n" := rfl
    rw [e, C68_not_recursive_partial P _ hd l rfl (hl.imp (fun x => by rw [x]) (fun x => by rw [x]))]
    simp only [render, PrettyBer.isFlagSet]
    simpa [Nat.mul_comm, List.append_assoc] using this
  cases c with
  | sequence l => exact lst l (.inl rfl)
  | set l => exact lst l (.inr rfl)
  | optionalSome o => exact absurd h id
  | optionalNone => exact absurd h id
  | tagged _ _ _ => exact absurd h id
  | _ => exact key _ (by simp) rfl (by simp only [leafText, fmtContent])

theorem outLines_of {P : PrintDeps} : ∀ {es : List DumpEvent}, (∀ e ∈ es, OutLine P e (e.stdout P)) →
    OutLines P es (es.flatMap (DumpEvent.stdout P))
  | [], _ => .nil
  | e :: es, h => by
    rw [List.flatMap_cons]
    exact .cons e _ es _ (h e List.mem_cons_self) (outLines_of fun x hx => h x (List.mem_cons_of_mem _ hx))

theorem dump_lines {P : PrintDeps} {D : Deps} {l : List (BerObject × Nat)} {evs : List DumpEvent}
    (h : Dump D l evs) (hl : ∀ q ∈ l, plainContent q.1.content ∧ 1 ≤ q.2) :
    ∀ e ∈ evs, OutLine P e (e.stdout P) := by
  have opens : ∀ d, 1 ≤ d → OutLine P (.opens d) (DumpEvent.stdout P (.opens d)) := by
    intro d hd
    have := OutLine.opens (P := P) d
    rw [Nat.mul_comm, ← Nat.max_eq_right (by omega : 1 ≤ d * 2)] at this
    exact this
  have closes : ∀ d, 1 ≤ d → OutLine P (.closes d) (DumpEvent.stdout P (.closes d)) := by
    intro d hd
    have := OutLine.closes (P := P) d
    rw [Nat.mul_comm, ← Nat.max_eq_right (by omega : 1 ≤ d * 2)] at this
    exact this
  induction h with
  | nil => simp
  | plain o d l evs _ _ ih =>
    intro e he
    rcases List.mem_cons.1 he with rfl | he
    · exact outLine_object P o d (hl _ List.mem_cons_self).1
    · exact ih (fun q hq => hl q (List.mem_cons_of_mem _ hq)) e he
  | data o d l s rem os inner evs hs ho _ _ ih1 ih2 =>
    intro e he
    have hd : 1 ≤ d := (hl _ List.mem_cons_self).2
    rcases List.mem_cons.1 he with rfl | he
    · exact outLine_object P o d (hl _ List.mem_cons_self).1
    · rcases List.mem_append.1 he with he | he
      · have hin : ∀ e ∈ inner, OutLine P e (e.stdout P) := by
          refine ih1 fun q hq => ?_
          obtain ⟨p, hp, hq⟩ := List.mem_flatMap.1 hq
          obtain ⟨_, x, y, -, hp⟩ := objects_mem ho p hp
          have h2 := (preorder_depth p (d + 1) q hq).1
          exact ⟨plain_of_returned (.inl ⟨_, hp⟩) ((C52_visits_nodes q.1 p (d + 1)).1 ⟨q.2, hq⟩), by omega⟩
        unfold encapLines at he
        simp only [List.mem_append] at he
        rcases he with (((he | he) | he) | he) | he
        · split at he
          · cases he
          · rw [List.mem_singleton.1 he]; exact opens d hd
        · exact hin e he
        · split at he
          · rw [List.mem_singleton.1 he]; exact .parseError d
          · cases he
        · split at he
          · cases he
          · rw [List.mem_singleton.1 he]; exact closes d hd
        · split at he
          · rw [List.mem_singleton.1 he]
            exact .remaining _ _ _ _ ((C93_decimal _ _).1 rfl) ((C93_decimal _ _).1 rfl)
          · cases he
      · exact ih2 (fun q hq => hl q (List.mem_cons_of_mem _ hq)) e he

theorem fileText_of {P : PrintDeps} {D : Deps} {ber : Bool} {data rem : Bytes} {o : BerObject}
    {evs : List DumpEvent} (hp : (if ber then parseBer D data else parseDer D data) = .ok (rem, o))
    (hd : Dump D (preorder o 1) evs) :
    FileText P D ber data (evs.flatMap (DumpEvent.stdout P) ++ extraText rem) := by
  have hr : Returned D data rem o := by
    cases ber
    · exact .inr (.inl ⟨50, hp⟩)
    · exact .inl ⟨50, hp⟩
  refine ⟨rem, o, evs, _, hp, hd, outLines_of (dump_lines hd fun q hq => ?_), ?_⟩
  · exact ⟨plain_of_returned hr ((C52_visits_nodes q.1 o 1).1 ⟨q.2, hq⟩), (preorder_depth o 1 q hq).1⟩
  · cases rem with
    | nil => exact .inl ⟨rfl, by simp [extraText]⟩
    | cons b rem =>
      refine .inr ⟨_, hexList_sepBy (b :: rem) (by simp), ?_⟩
      unfold extraText debugHexBytes
      have : lit "WARNING: extra bytes after BER/DER object:\n[" =
        lit "WARNING: extra bytes after BER/DER object:\n" ++ lit "[" := by decide +kernel
      have h2 : lit "]\n" = lit "]" ++ lit "\n" := by decide +kernel
      rw [this, h2]
      simp only [List.isEmpty_cons, Bool.false_eq_true, if_false, List.append_assoc]

theorem outLine_unique {P : PrintDeps} {e : DumpEvent} {s t : Bytes} (h1 : OutLine P e s) (h2 : OutLine P e t) :
    s = t := by
  have hdr : ∀ {h : Header} {a b : Bytes}, HeaderText P h a → HeaderText P h b → a = b := by
    intro h a b ha hb
    rw [(C93_header P h a).2 ha, (C93_header P h b).2 hb]
  have dec : ∀ {a b : Bytes} {n : Nat}, IsDecimal a n → IsDecimal b n → a = b := by
    intro a b n ha hb
    rw [(C93_decimal a n).2 ha, (C93_decimal b n).2 hb]
  cases h1 with
  | list h c l d hd hc hh =>
    cases h2 with
    | list _ _ _ _ hd' _ hh' => rw [hdr hh hh']
    | value _ _ _ _ hn => rcases hc with rfl | rfl
                          · exact absurd rfl (hn l).1
                          · exact absurd rfl (hn l).2
  | value h c d hd hn hh =>
    cases h2 with
    | list _ _ l _ hd' hc hh' => rcases hc with rfl | rfl
                                 · exact absurd rfl (hn l).1
                                 · exact absurd rfl (hn l).2
    | value _ _ _ _ _ hh' => rw [hdr hh hh']
  | opens d => cases h2; rfl
  | closes d => cases h2; rfl
  | parseError d => cases h2; rfl
  | remaining n d t u ht hu =>
    cases h2 with
    | remaining _ _ t' u' ht' hu' => rw [dec ht ht', dec hu hu']

theorem outLines_unique {P : PrintDeps} {es : List DumpEvent} {s t : Bytes} (h1 : OutLines P es s)
    (h2 : OutLines P es t) : s = t := by
  induction h1 generalizing t with
  | nil => cases h2; rfl
  | cons e x es xs hx _ ih =>
    cases h2 with
    | cons _ y _ ys hy hys => rw [outLine_unique hx hy, ih hys]

/-- C100: the output for a file is determined by its octets and the mode. -/
theorem C100_unique (P : PrintDeps) (D : Deps) (ber : Bool) (data s t : Bytes) (h1 : FileText P D ber data s)
    (h2 : FileText P D ber data t) : s = t := by
  obtain ⟨rem, o, evs, lines, hp, hd, hl, ht⟩ := h1
  obtain ⟨rem', o', evs', lines', hp', hd', hl', ht'⟩ := h2
  rw [hp] at hp'
  cases hp'
  have hr : Returned D data rem o := by
    cases ber
    · exact .inr (.inl ⟨50, hp⟩)
    · exact .inl ⟨50, hp⟩
  obtain ⟨ev, -, hu⟩ := C77_exact D data rem o 1 (data.length + 1) hr (by omega)
  obtain rfl := (hu evs).1 hd
  obtain rfl := (hu evs').1 hd'
  obtain rfl := outLines_unique hl hl'
  rcases ht with ⟨h1, rfl⟩ | ⟨x, hx, rfl⟩ <;> rcases ht' with ⟨h2, rfl⟩ | ⟨y, hy, rfl⟩
  · rfl
  · exact absurd h1 (hexList_ne hy)
  · exact absurd h2 (hexList_ne hx)
  · rw [hexList_unique hx hy]

/-- C100: the output for one file: with an object at its start, the text of its dump; otherwise the program stops
with a panic. -/
theorem C100_file (P : PrintDeps) (D : Deps) (ber : Bool) (data : Bytes) :
    (∃ evs rem, dumpMain D ber data = .ok (evs, rem) ∧
      FileText P D ber data (evs.flatMap (DumpEvent.stdout P) ++ extraText rem)) ∨
    (dumpMain D ber data = .panic ∧ ∃ e, (if ber then parseBer D data else parseDer D data) = .err e) := by
  rcases C77_main D ber data with ⟨e, h1, h2⟩ | ⟨rem, o, evs, h1, h2, h3⟩
  · exact .inr ⟨h2, e, h1⟩
  · exact .inl ⟨evs, rem, h2, fileText_of h1 h3⟩

/-- The hypotheses of `C100_unique` are met: a file that is read has a text. -/
example : ∃ s, FileText Tests.P0 Tests.D0 true [0x30, 0x02, 0x05, 0x00, 9] s := by
  obtain ⟨evs, rem, _, h⟩ | ⟨h, _⟩ := C100_file Tests.P0 Tests.D0 true [0x30, 0x02, 0x05, 0x00, 9]
  · exact ⟨_, h⟩
  · cases h

/-! ## Arguments -/

/-- The files with their modes, from a starting mode. -/
def filesFrom : Bool → List String → List (Bool × String)
  | _, [] => []
  | m, a :: as =>
    if a = "--ber" then filesFrom true as else if a = "--der" then filesFrom false as else (m, a) :: filesFrom m as

theorem files_eq (pre : List String) : ∀ args : List String,
    (List.range args.length).filterMap (fun k => match args[k]? with
      | some a => if isOption a then none
        else some ((((pre ++ args.take k).filter isOption).getLast? == some "--ber"), a)
      | none => none) = filesFrom ((pre.filter isOption).getLast? == some "--ber") args := by
  intro args
  induction args generalizing pre with
  | nil => rfl
  | cons a as ih =>
    have step := ih (pre ++ [a])
    rw [List.length_cons, List.range_succ_eq_map, List.filterMap_cons, List.filterMap_map]
    have tail : (List.range as.length).filterMap ((fun k => match (a :: as)[k]? with
        | some x => if isOption x then none
          else some ((((pre ++ (a :: as).take k).filter isOption).getLast? == some "--ber"), x)
        | none => none) ∘ Nat.succ) =
        filesFrom (((pre ++ [a]).filter isOption).getLast? == some "--ber") as := by
      rw [← step]
      congr 1
      funext k
      simp only [Function.comp, List.getElem?_cons_succ, List.take_succ_cons, List.append_assoc,
        List.singleton_append]
    rw [tail]
    simp only [List.getElem?_cons_zero, List.take_zero, List.append_nil]
    rw [filesFrom.eq_2]
    by_cases h1 : a = "--ber"
    · subst h1
      have : isOption "--ber" = true := by decide
      simp [this]
    · by_cases h2 : a = "--der"
      · subst h2
        have : isOption "--der" = true := by decide
        simp [this]
      · have : isOption a = false := by simp [isOption, h1, h2]
        simp [this, h1, h2]

theorem dumpArgs_files (P : PrintDeps) (D : Deps) (read : String → Option Bytes) :
    ∀ (args : List String) (m : Bool), ∃ good bad, filesFrom m args = good ++ bad ∧
      FilesText P D read good (dumpArgs P D read m args).1 ∧
      ((dumpArgs P D read m args).2 = true → bad = []) ∧
      ((dumpArgs P D read m args).2 = false → ∃ b f rest, bad = (b, f) :: rest ∧ Refused D read b f)
  | [], m => ⟨[], [], rfl, .nil, fun _ => rfl, fun h => by simp [dumpArgs] at h⟩
  | a :: as, m => by
    unfold dumpArgs filesFrom
    by_cases h1 : a = "--ber"
    · rw [if_pos h1, if_pos h1]; exact dumpArgs_files P D read as true
    · rw [if_neg h1, if_neg h1]
      by_cases h2 : a = "--der"
      · rw [if_pos h2, if_pos h2]; exact dumpArgs_files P D read as false
      · rw [if_neg h2, if_neg h2]
        cases hr : read a with
        | none => exact ⟨[], (m, a) :: filesFrom m as, rfl, .nil, fun h => by simp at h,
            fun _ => ⟨m, a, _, rfl, .inl hr⟩⟩
        | some data =>
          dsimp only
          rcases C100_file P D m data with ⟨evs, rem, h3, h4⟩ | ⟨h3, e, h4⟩
          · rw [h3]
            dsimp only
            obtain ⟨good, bad, g1, g2, g3, g4⟩ := dumpArgs_files P D read as m
            exact ⟨(m, a) :: good, bad, by rw [g1]; rfl, .cons m a data _ good _ hr h4 g2, g3, g4⟩
          · rw [h3]
            exact ⟨[], (m, a) :: filesFrom m as, rfl, .nil, fun h => by simp at h,
              fun _ => ⟨m, a, _, rfl, .inr ⟨data, e, hr, h4⟩⟩⟩

/-- C100: the program writes the texts of the files of its command line in order, each read in the mode of the last
option before it, up to the first that cannot be read or does not start with an object.  There it stops with a
panic; without such a file it ends normally. -/
theorem C100_program (P : PrintDeps) (D : Deps) (read : String → Option Bytes) (args : List String) :
    ∃ good bad, files args = good ++ bad ∧ FilesText P D read good (dumpProgram P D read args).1 ∧
      ((dumpProgram P D read args).2 = true → bad = []) ∧
      ((dumpProgram P D read args).2 = false → ∃ b f rest, bad = (b, f) :: rest ∧ Refused D read b f) := by
  have h := files_eq [] args
  simp only [List.nil_append, List.filter_nil, List.getLast?_nil] at h
  have h2 : files args = filesFrom false args := h
  rw [h2]
  exact dumpArgs_files P D read args false

/-- Two files, the second read as BER, then one that does not exist. -/
example : (let fs : String → Option Bytes := fun f =>
      if f = "a" then some [0x30, 0x02, 0x05, 0x00, 0x0b, 0xff] else if f = "b" then some [0x01, 0x01, 0x07] else none
    let r := dumpProgram Tests.P0 Tests.D0 fs ["a", "--ber", "b", "c", "a"]
    decide (r.1 = lit ("  [16]+ 2 Sequence\n    [5] 0 Null\n" ++
      "WARNING: extra bytes after BER/DER object:\n[b, ff]\n" ++ "  [1] 1 Boolean(true)\n")) &&
    decide (r.2 = false)) = true := by decide +kernel

example : files ["a", "--ber", "b", "--der", "c"] = [(false, "a"), (true, "b"), (false, "c")] := by decide +kernel

end Verif
