import Verif.Props.Survive
import Verif.Lemmas.Calendar
/-!
# Property C133: times after serialization
-/
namespace Verif
open Outcome Spec

/-! ## What is read back from a serialized object, for any date library -/

mutual
/-- `Reread D o o'`: `o'` is `o` with every time replaced by what the date library reads from its written form.  Stored
lengths and raw tags may differ. -/
def Spec.Reread (D : Deps) : BerObject → BerObject → Prop
  | .mk h x, .mk h' x' => SameKind h' h ∧ RereadC D h.constructed x x'
/-- The same for contents. -/
def Spec.RereadC (D : Deps) (k : Bool) : Content → Content → Prop
  | .utcTime t, x' => ∃ t', x' = .utcTime t' ∧ D.utcTime k (D.display t) = .ok t'
  | .generalizedTime t, x' => ∃ t', x' = .generalizedTime t' ∧ D.generalizedTime k (D.display t) = .ok t'
  | .sequence l, x' => ∃ l', x' = .sequence l' ∧ RereadL D l l'
  | .set l, x' => ∃ l', x' = .set l' ∧ RereadL D l l'
  | x, x' => eraseC x' = eraseC x
/-- The same for lists, in order. -/
def Spec.RereadL (D : Deps) : List BerObject → List BerObject → Prop
  | [], l' => l' = []
  | o :: l, l' => ∃ o' m, l' = o' :: m ∧ Reread D o o' ∧ RereadL D l m
end

/-- Every time in `o` has a written form that is read as some time. -/
def Spec.TimesReadable (D : Deps) (o : BerObject) : Prop :=
  ∀ o', Node o' o →
    (∀ t, o'.content = .utcTime t → ∃ t', D.utcTime o'.header.constructed (D.display t) = .ok t') ∧
    (∀ t, o'.content = .generalizedTime t → ∃ t', D.generalizedTime o'.header.constructed (D.display t) = .ok t')

theorem leaf_tag23 {D : Deps} {h : Header} {c : Bytes} {x : Content} (hL : Leaf D h c x) (h1 : h.cls = .universal)
    (h2 : h.tag = 23) : ∃ t, x = .utcTime t ∧ D.utcTime h.constructed c = .ok t := by
  cases x <;> simp only [Leaf, h1, h2] at hL <;> try omega
  case utcTime t => exact ⟨t, rfl, hL.2.2⟩
  case str k s => cases k <;> simp [strTag] at hL
  case unknown => simp at hL
  all_goals exact hL.elim

theorem leaf_tag24 {D : Deps} {h : Header} {c : Bytes} {x : Content} (hL : Leaf D h c x) (h1 : h.cls = .universal)
    (h2 : h.tag = 24) : ∃ t, x = .generalizedTime t ∧ D.generalizedTime h.constructed c = .ok t := by
  cases x <;> simp only [Leaf, h1, h2] at hL <;> try omega
  case generalizedTime t => exact ⟨t, rfl, hL.2.2⟩
  case str k s => cases k <;> simp [strTag] at hL
  case unknown => simp at hL
  all_goals exact hL.elim

/-- Every object of an encoded list is one of the elements that are read. -/
theorem encodesL_mem {D : Deps} {items : List Item} (hF : ∀ it ∈ items, Framed 50 it.bytes it.header it.body) :
    ∀ {l : List BerObject}, EncodesL D l (items.flatMap Item.bytes) → (items.flatMap Item.bytes).length < 2 ^ 64 →
      ∀ o ∈ l, ∃ it ∈ items, Encodes D o it.bytes := by
  induction items with
  | nil =>
    intro l hv _ o ho
    cases l with
    | nil => simp at ho
    | cons p l =>
      obtain ⟨a, b, h1, h2, -⟩ := hv
      obtain ⟨hd, x⟩ := p
      obtain ⟨_, _, _, rfl, _⟩ := h2
      simp at h1
  | cons it items ih =>
    intro l hv hl o ho
    cases l with
    | nil => simp at ho
    | cons p l =>
      rw [List.flatMap_cons] at hv hl
      obtain ⟨a, b, h1, h2, h3⟩ := hv
      have hl' := hl
      rw [h1] at hl'
      rw [List.length_append] at hl hl'
      obtain ⟨_, _, g⟩ := encodes_framed h2 (by omega)
      obtain ⟨e1, e2, -⟩ := framed_unique (hF it (by simp)) g h1
      rcases List.mem_cons.1 ho with rfl | ho
      · exact ⟨it, by simp, e1 ▸ h2⟩
      · obtain ⟨it', h4, h5⟩ := ih (fun x hx => hF x (by simp [hx])) (e2 ▸ h3) (by omega) o ho
        exact ⟨it', by simp [h4], h5⟩

/-- The frame of an encoded object. -/
theorem encodes_frame {D : Deps} {o : BerObject} {e c : Bytes} {h : Header} (he : Encodes D o e) (hl : e.length < 2 ^ 64)
    (hF : Framed 50 e h c) : SameKind h o.header ∧ EncodesC D o.content c ∧ h.length = .definite c.length ∧
      c.length < 2 ^ 64 ∧ o.header.tag ≤ 30 := by
  obtain ⟨h0, x⟩ := o
  obtain ⟨b, len, v, rfl, h1, h2, h3⟩ := he
  have hv : v.length < 2 ^ 64 := by simp only [List.length_cons, List.length_append] at hl; omega
  obtain ⟨_, _, rfl, rfl⟩ := framed_unique (r := []) (r' := []) hF (minFramed h1 h2 hv) rfl
  exact ⟨⟨rfl, rfl, rfl⟩, h3, rfl, hv, ((identOctet_iff (h := h0)).1 h1).1⟩

theorem readable_of_denotes {D : Deps} {d : Nat} {h : Header} {c : Bytes} {x : Content} (hD : Denotes D d h c x) :
    ∀ {d' : Nat} {h' : Header} {c' : Bytes} {x' : Content}, SameKind h' h → EncodesC D x c' → c'.length < 2 ^ 64 →
      Denotes D d' h' c' x' → TimesReadable D (.mk h x) := by
  induction hD with
  | leaf d h c x hL =>
    intro d' h' c' x' hk hv hl hD' o' hn
    obtain ⟨k1, k2, k3⟩ := hk
    cases hn with
    | self =>
      refine ⟨fun t hx => ?_, fun t hx => ?_⟩
      · obtain rfl : x = .utcTime t := hx
        have h1 : h'.cls = .universal := k1.trans hL.1
        have h2 : h'.tag = 23 := k3.trans hL.2.1
        cases hD' with
        | leaf _ _ _ _ hL' =>
          obtain ⟨t', -, ht'⟩ := leaf_tag23 hL' h1 h2
          obtain rfl : c' = D.display t := hv
          exact ⟨t', k2 ▸ ht'⟩
        | sequence _ _ _ _ g => omega
        | set _ _ _ _ g => omega
      · obtain rfl : x = .generalizedTime t := hx
        have h1 : h'.cls = .universal := k1.trans hL.1
        have h2 : h'.tag = 24 := k3.trans hL.2.1
        cases hD' with
        | leaf _ _ _ _ hL' =>
          obtain ⟨t', -, ht'⟩ := leaf_tag24 hL' h1 h2
          obtain rfl : c' = D.display t := hv
          exact ⟨t', k2 ▸ ht'⟩
        | sequence _ _ _ _ g => omega
        | set _ _ _ _ g => omega
    | seq => exact hL.elim
    | set => exact hL.elim
  | sequence d h items g1 g2 g3 g4 g5 ih =>
    intro d' h' c' x' hk hv hl hD' o' hn
    obtain ⟨k1, k2, k3⟩ := hk
    cases hD' with
    | leaf _ _ _ _ hL' => exact absurd (k3.trans g2) (leaf_not_list hL' (k1.trans g1)).1
    | set _ _ _ _ g => omega
    | sequence d' _ items' f1 f2 f3 f4 f5 =>
      cases hn with
      | self => exact ⟨fun t hx => (by cases hx), fun t hx => (by cases hx)⟩
      | seq _ _ o ho hn =>
        obtain ⟨it', h1, h2⟩ := encodesL_mem f4 hv hl o ho
        obtain ⟨it, hit, rfl⟩ := List.mem_map.1 ho
        obtain ⟨s1, s2, -, s3, -⟩ := encodes_frame h2
          (Nat.lt_of_le_of_lt (by rw [List.flatMap_def]; exact length_le_flatten (List.mem_map_of_mem h1)) hl) (f4 it' h1)
        exact ih it hit s1 s2 s3 (f5 it' h1) o' hn
  | set d h items g1 g2 g3 g4 g5 ih =>
    intro d' h' c' x' hk hv hl hD' o' hn
    obtain ⟨k1, k2, k3⟩ := hk
    cases hD' with
    | leaf _ _ _ _ hL' => exact absurd (k3.trans g2) (leaf_not_list hL' (k1.trans g1)).2
    | sequence _ _ _ _ g => omega
    | set d' _ items' f1 f2 f3 f4 f5 =>
      cases hn with
      | self => exact ⟨fun t hx => (by cases hx), fun t hx => (by cases hx)⟩
      | set _ _ o ho hn =>
        obtain ⟨it', h1, h2⟩ := encodesL_mem f4 hv hl o ho
        obtain ⟨it, hit, rfl⟩ := List.mem_map.1 ho
        obtain ⟨s1, s2, -, s3, -⟩ := encodes_frame h2
          (Nat.lt_of_le_of_lt (by rw [List.flatMap_def]; exact length_le_flatten (List.mem_map_of_mem h1)) hl) (f4 it' h1)
        exact ih it hit s1 s2 s3 (f5 it' h1) o' hn

theorem rereadC_wf {D : Deps} {k : Bool} {x x' : Content} (h : eraseC x' = eraseC x)
    (h1 : ∀ t, x ≠ .utcTime t) (h2 : ∀ t, x ≠ .generalizedTime t) (h3 : ∀ l, x ≠ .sequence l) (h4 : ∀ l, x ≠ .set l) :
    RereadC D k x x' := by
  cases x <;> first | exact h | exact absurd rfl (h1 _) | exact absurd rfl (h2 _) | exact absurd rfl (h3 _) | exact absurd rfl (h4 _)

theorem reread_items {D : Deps} {d : Nat} {items : List Item}
    (ih : ∀ it ∈ items, ∀ {h' : Header} {c' : Bytes}, SameKind h' it.header → EncodesC D it.value c' → c'.length < 2 ^ 64 →
      h'.length = .definite c'.length →
      ∃ x', Denotes D d h' c' x' ∧ RereadC D it.header.constructed it.value x') :
    ∀ {v : Bytes}, EncodesL D (items.map fun it => .mk it.header it.value) v → v.length < 2 ^ 64 →
    ∃ items' : List Item, v = items'.flatMap Item.bytes ∧ (∀ it ∈ items', Framed 50 it.bytes it.header it.body) ∧
      (∀ it ∈ items', Denotes D d it.header it.body it.value) ∧
      RereadL D (items.map fun it => .mk it.header it.value) (items'.map fun it => .mk it.header it.value) := by
  induction items with
  | nil => intro v hv _; exact ⟨[], hv, by simp, by simp, rfl⟩
  | cons it items ihl =>
    intro v hv hl
    obtain ⟨a, b, rfl, h1, h2⟩ := hv
    rw [List.length_append] at hl
    obtain ⟨h', c', g⟩ := encodes_framed h1 (by omega)
    obtain ⟨s1, s2, s3, s4, s5⟩ := encodes_frame h1 (by omega) g
    obtain ⟨x', f1, f2⟩ := ih it (by simp) s1 s2 s4 s3
    obtain ⟨items', e1, e2, e3, e4⟩ := ihl (fun x hx => ih x (by simp [hx])) h2 (by omega)
    refine ⟨⟨a, h', c', x'⟩ :: items', by rw [List.flatMap_cons, ← e1], ?_, ?_, ?_⟩
    · intro x hx
      rcases List.mem_cons.1 hx with rfl | hx
      · exact g
      · exact e2 x hx
    · intro x hx
      rcases List.mem_cons.1 hx with rfl | hx
      · exact f1
      · exact e3 x hx
    · exact ⟨_, _, rfl, ⟨s1, f2⟩, e4⟩

theorem reread_exists {D : Deps} {d : Nat} {h : Header} {c : Bytes} {x : Content} (hD : Denotes D d h c x) :
    (∀ o', Node o' (.mk h x) → o'.header.tag ≤ 30) → TimesReadable D (.mk h x) →
    ∀ {h' : Header} {c' : Bytes}, SameKind h' h → EncodesC D x c' → c'.length < 2 ^ 64 → h'.length = .definite c'.length →
      ∃ x', Denotes D d h' c' x' ∧ RereadC D h.constructed x x' := by
  induction hD with
  | leaf d h c x hL =>
    intro ht hR h' c' hk hv hl hlen
    have hR0 := hR _ .self
    by_cases hu : ∃ t, x = .utcTime t
    · obtain ⟨t, rfl⟩ := hu
      obtain ⟨t', ht'⟩ := hR0.1 t rfl
      obtain rfl : c' = D.display t := hv
      exact ⟨.utcTime t', .leaf _ _ _ _ ⟨hk.1.trans hL.1, hk.2.2.trans hL.2.1, hk.2.1.symm ▸ ht'⟩, t', rfl, ht'⟩
    by_cases hg : ∃ t, x = .generalizedTime t
    · obtain ⟨t, rfl⟩ := hg
      obtain ⟨t', ht'⟩ := hR0.2 t rfl
      obtain rfl : c' = D.display t := hv
      exact ⟨.generalizedTime t', .leaf _ _ _ _ ⟨hk.1.trans hL.1, hk.2.2.trans hL.2.1, hk.2.1.symm ▸ ht'⟩, t', rfl, ht'⟩
    have hs : ∀ l, x ≠ .sequence l := by rintro l rfl; exact hL
    have hs' : ∀ l, x ≠ .set l := by rintro l rfl; exact hL
    have hn : ∀ o', Node o' (.mk h x) → o' = .mk h x := by
      intro o' hn
      cases hn with
      | self => rfl
      | seq => exact absurd rfl (hs _)
      | set => exact absurd rfl (hs' _)
    have hW : Wf D (d + 1) (.mk h x) := denotes_wf (.leaf d h c x hL) ht
      (by rintro o' ho t hx; rw [hn o' ho] at hx; exact absurd ⟨t, hx⟩ hu)
      (by rintro o' ho t hx; rw [hn o' ho] at hx; exact absurd ⟨t, hx⟩ hg)
    obtain ⟨x', g1, g2⟩ := wf_content hW ((encodeContent_iff D x c' hl).2 hv) hl hk hlen
    exact ⟨x', g1, rereadC_wf g2 (fun t h => hu ⟨t, h⟩) (fun t h => hg ⟨t, h⟩) hs hs'⟩
  | sequence d h items g1 g2 g3 g4 g5 ih =>
    intro ht hR h' c' hk hv hl hlen
    obtain ⟨items', rfl, e2, e3, e4⟩ := reread_items (D := D) (d := d) (items := items) (fun it hit _ _ a1 a2 a3 a4 =>
      ih it hit (fun o' hn => ht o' (.seq _ _ _ (List.mem_map_of_mem hit) hn))
        (fun o' hn => hR o' (.seq _ _ _ (List.mem_map_of_mem hit) hn)) a1 a2 a3 a4) hv hl
    exact ⟨_, .sequence d h' items' (hk.1.trans g1) (hk.2.2.trans g2) (hk.2.1.trans g3) e2 e3, _, rfl, e4⟩
  | set d h items g1 g2 g3 g4 g5 ih =>
    intro ht hR h' c' hk hv hl hlen
    obtain ⟨items', rfl, e2, e3, e4⟩ := reread_items (D := D) (d := d) (items := items) (fun it hit _ _ a1 a2 a3 a4 =>
      ih it hit (fun o' hn => ht o' (.set _ _ _ (List.mem_map_of_mem hit) hn))
        (fun o' hn => hR o' (.set _ _ _ (List.mem_map_of_mem hit) hn)) a1 a2 a3 a4) hv hl
    exact ⟨_, .set d h' items' (hk.1.trans g1) (hk.2.2.trans g2) (hk.2.1.trans g3) e2 e3, _, rfl, e4⟩

/-! ## C133 -/

/-- C133, for every date library: what was read and serialized is accepted again exactly if every time in it is
readable in its written form; and then every time is replaced by what is read there, and nothing else changes. -/
theorem C133_reread (D : Deps) (i rem e : Bytes) (o : BerObject) (h : parseBer D i = .ok (rem, o))
    (he : toVec D o = .ok e) (hl : e.length < 2 ^ 64) :
    ((∃ r o', parseBer D e = .ok (r, o')) ↔ TimesReadable D o) ∧
      ∀ r o', parseBer D e = .ok (r, o') → r = [] ∧ Reread D o o' := by
  obtain ⟨_, c, _, _, h3⟩ := parseBerRecursive_iff.1 h
  have hk : ∀ o', Node o' o → o'.header.tag ≤ 30 := fun o' hn =>
    node_tagsOk hn (((C47_panics_iff D o).2).1 ⟨e, he⟩)
  have hE := (C49_exact D o e hl).1 he
  obtain ⟨h', c', hF⟩ := encodes_framed hE hl
  obtain ⟨s1, s2, s3, s4, -⟩ := encodes_frame hE hl hF
  have hex : TimesReadable D o → ∃ x', parseBer D e = .ok ([], .mk h' x') ∧ Reread D o (.mk h' x') := by
    intro hR
    rw [← BerObject.eta o] at hR hk
    obtain ⟨x', g1, g2⟩ := reread_exists h3 hk hR s1 s2 s4 s3
    refine ⟨x', parseBerRecursive_iff.2 ⟨e, c', by simp, hF, g1⟩, ?_⟩
    rw [← BerObject.eta o]
    exact ⟨s1, g2⟩
  have hne : ∀ r o', parseBer D e = .ok (r, o') → TimesReadable D o := by
    intro r o' hp
    obtain ⟨e1, c1, q1, q2, q3⟩ := parseBerRecursive_iff.1 hp
    obtain ⟨rfl, -, q5, rfl⟩ := framed_unique (r := []) hF q2 (by simpa using q1)
    rw [← BerObject.eta o]
    exact readable_of_denotes h3 (q5 ▸ s1) s2 s4 q3
  refine ⟨⟨fun ⟨r, o', hp⟩ => hne r o' hp, fun hR => ?_⟩, fun r o' hp => ?_⟩
  · obtain ⟨x', g, -⟩ := hex hR
    exact ⟨_, _, g⟩
  · obtain ⟨x', g1, g2⟩ := hex (hne r o' hp)
    rw [hp] at g1
    simp only [ok.injEq, Prod.mk.injEq] at g1
    exact ⟨g1.1, g1.2 ▸ g2⟩

theorem digit_ge (n : Nat) : 48 ≤ (digit n).toNat := by
  unfold digit
  rw [UInt8.toNat_ofNat', Nat.mod_eq_of_lt] <;> omega

/-- A UTCTime is not readable in its written form. -/
theorem utc_unreadable {D : Deps} {date : Clock → DateTime} (L : DateLibrary D date) {k k' : Bool} {b : Bytes} {t : DateTime}
    (h : D.utcTime k b = .ok t) : ∀ t', D.utcTime k' (D.display t) ≠ .ok t' := by
  intro t' h'
  obtain ⟨c, r, rfl, h1, h2, h3, -, -⟩ := L.utc k b t h
  rw [L.display c h1 (by simp [h3])] at h'
  obtain ⟨c', r', -, -, -, -, h4, s, z, rfl, h5, h6⟩ := L.utc _ _ _ h'
  have e : s ++ z = two c.minute ++ two c.second ++ [0x5a] := by
    have := congrArg (List.drop 10) h4
    simpa [Clock.text, Clock.longDigits, Clock.shortDigits, two, h3, fraction] using this.symm
  have hd := digit_ge (c.minute / 10)
  rcases h5 with rfl | h5
  · rw [List.nil_append] at e
    subst e
    rcases h6 with h6 | h6 | ⟨sign, w, h6, -, h7⟩
    · simp [two] at h6
    · simp [two] at h6
    · rcases h6 with rfl | rfl <;>
      · simp only [two, List.cons_append, List.nil_append, List.cons.injEq] at h7
        rw [h7.1] at hd
        exact absurd hd (by decide)
  · have hz : z.length = 3 := by
      have := congrArg List.length e
      simp [two] at this; omega
    rcases h6 with rfl | rfl | ⟨sign, w, h6, h7, rfl⟩
    · simp at hz
    · simp at hz
    · rcases h6 with rfl | rfl <;> simp [h7] at hz

/-- C133: with a date library like asn1-rs, nothing that contains a UTCTime is accepted after it was read and
serialized: the year is written with four digits. -/
theorem C133_utctime_lost (D : Deps) (date : Clock → DateTime) (L : DateLibrary D date) (i rem e : Bytes) (o o' : BerObject)
    (t : DateTime) (h : parseBer D i = .ok (rem, o)) (hn : Node o' o) (ht : o'.content = .utcTime t)
    (he : toVec D o = .ok e) (hl : e.length < 2 ^ 64) : ∀ r x, parseBer D e ≠ .ok (r, x) := by
  intro r x hp
  obtain ⟨t', h'⟩ := (((C133_reread D i rem e o h he hl).1.1 ⟨r, x, hp⟩) o' hn).1 t ht
  obtain ⟨_, _, _, c, _, -, -, -, hD⟩ := C62_nodes_from_input D _ i rem o o' h hn
  rw [ht] at hD
  exact utc_unreadable L (denotes_leaf hD (by simp) (by simp)).2.2 t' h'

/-- C133, for `parse_der`: what `parse_der` returned and contains a UTCTime is accepted neither by `parse_der` nor by
`parse_ber` after `to_vec`. -/
theorem C133_der_utctime_lost (D : Deps) (date : Clock → DateTime) (L : DateLibrary D date) (hT : TimesKnown D)
    (i rem e : Bytes) (o o' : BerObject) (t : DateTime) (h : parseDer D i = .ok (rem, o)) (hn : Node o' o)
    (ht : o'.content = .utcTime t) (he : toVec D o = .ok e) (hl : e.length < 2 ^ 64) :
    (∀ r x, parseDer D e ≠ .ok (r, x)) ∧ ∀ r x, parseBer D e ≠ .ok (r, x) := by
  obtain ⟨p, h1, -, h2⟩ := C36_parse_der_partial D hT _ i rem o h
  have hb : parseBer D i = .ok (rem, o) := by
    rcases h2 with rfl | ⟨c, hc, -⟩
    · exact h1
    · exfalso
      cases hn with
      | self => rw [hc] at ht; cases ht
      | seq => cases hc
      | set => cases hc
  have key := C133_utctime_lost D date L i rem e o o' t hb hn ht he hl
  refine ⟨fun r x hp => ?_, key⟩
  obtain ⟨q, g, -⟩ := C36_parse_der_partial D hT _ e r x hp
  exact key r q g

/-- C133: without UTCTime, and with fractions below one second, what was read and serialized is accepted; every
GeneralizedTime comes back with zone `Z` and with its milliseconds taken for the digits of a fraction. -/
theorem C133_generalized (D : Deps) (date : Clock → DateTime) (L : DateLibrary D date) (i rem e : Bytes) (o : BerObject)
    (h : parseBer D i = .ok (rem, o)) (hu : ∀ o' t, Node o' o → o'.content ≠ .utcTime t)
    (hm : ∀ o' c v, Node o' o → o'.content = .generalizedTime (date c) → c.milli = some v → v < 1000)
    (he : toVec D o = .ok e) (hl : e.length < 2 ^ 64) :
    (∃ o', parseBer D e = .ok ([], o') ∧ Reread D o o') ∧
      ∀ o' t, Node o' o → o'.content = .generalizedTime t → ∃ c, t = date c ∧ D.display t = c.text ∧
        D.generalizedTime o'.header.constructed (D.display t) = .ok (date c.reread) := by
  have key : ∀ o' t, Node o' o → o'.content = .generalizedTime t → ∃ c, t = date c ∧ D.display t = c.text ∧
        D.generalizedTime o'.header.constructed (D.display t) = .ok (date c.reread) := by
    intro o' t hn ht
    obtain ⟨_, _, _, b, _, -, -, -, hD⟩ := C62_nodes_from_input D _ i rem o o' h hn
    rw [ht] at hD
    have hg := (denotes_leaf hD (by simp) (by simp)).2.2
    obtain ⟨c, rfl, hr⟩ := L.generalized _ _ _ hg
    have hd := L.display c hr (fun v hv => hm o' c v hn ht hv)
    exact ⟨c, rfl, hd, hd ▸ L.reads _ _ _ hg (fun v hv => hm o' c v hn ht hv)⟩
  obtain ⟨R1, R2⟩ := C133_reread D i rem e o h he hl
  obtain ⟨r, o', hp⟩ := R1.2 fun o' hn =>
    ⟨fun t ht => absurd ht (hu o' t hn), fun t ht => (key o' t hn ht).elim fun c hc => ⟨_, hc.2.2⟩⟩
  obtain ⟨rfl, hR⟩ := R2 r o' hp
  exact ⟨⟨o', hp, hR⟩, key⟩

/-- C133: what was read survives serialization exactly if it contains no UTCTime, and only GeneralizedTimes with zone
`Z` and without a fraction below a tenth of a second (other than zero). -/
theorem C133_survives_iff (D : Deps) (date : Clock → DateTime) (L : DateLibrary D date) (i rem e : Bytes) (o : BerObject)
    (h : parseBer D i = .ok (rem, o))
    (hm : ∀ o' c v, Node o' o → o'.content = .generalizedTime (date c) → c.milli = some v → v < 1000)
    (he : toVec D o = .ok e) (hl : e.length < 2 ^ 64) :
    (∃ o', parseBer D e = .ok ([], o') ∧ erase o' = erase o) ↔
      (∀ o' t, Node o' o → o'.content ≠ .utcTime t) ∧
      ∀ o' c, Node o' o → o'.content = .generalizedTime (date c) →
        c.zone = .z ∧ ∀ v, c.milli = some v → v = 0 ∨ 100 ≤ v := by
  have same : ∀ c : Clock, c.reread = c ↔ c.zone = .z ∧ ∀ v, c.milli = some v → v = 0 ∨ 100 ≤ v := by
    rintro ⟨y, m, d, hh, n, s, mi, zo⟩
    cases mi with
    | none => simp [Clock.reread, eq_comm]
    | some v =>
      simp only [Clock.reread, Option.map_some, Clock.mk.injEq, true_and, Option.some.injEq, forall_eq', scaled]
      rw [and_comm, eq_comm]
      refine and_congr_right fun _ => ?_
      split
      · omega
      · split <;> omega
  have gen : ∀ o' c, Node o' o → o'.content = .generalizedTime (date c) →
      D.generalizedTime o'.header.constructed (D.display (date c)) = .ok (date c.reread) := by
    intro o' c hn ht
    obtain ⟨_, _, _, b, _, -, -, -, hD⟩ := C62_nodes_from_input D _ i rem o o' h hn
    rw [ht] at hD
    have hg := (denotes_leaf hD (by simp) (by simp)).2.2
    obtain ⟨c', hc, hr⟩ := L.generalized _ _ _ hg
    obtain rfl := L.inj _ _ hc
    rw [L.display c hr (fun v hv => hm o' c v hn ht hv)]
    exact L.reads _ _ _ hg (fun v hv => hm o' c v hn ht hv)
  rw [C47_iff_partial D i rem e o h he hl]
  constructor
  · refine fun H => ⟨fun o' t hn ht => ?_, fun o' c hn ht => (same c).1 ?_⟩
    · obtain ⟨_, _, _, c, _, -, -, -, hD⟩ := C62_nodes_from_input D _ i rem o o' h hn
      rw [ht] at hD
      exact utc_unreadable L (denotes_leaf hD (by simp) (by simp)).2.2 t ((H o' hn).1 t ht)
    · have := (H o' hn).2 _ ht
      rw [gen o' c hn ht] at this
      exact L.inj _ _ (by simpa using this)
  · rintro ⟨h1, h2⟩ o' hn
    refine ⟨fun t ht => absurd ht (h1 o' t hn), fun t ht => ?_⟩
    obtain ⟨_, _, _, b, _, -, -, -, hD⟩ := C62_nodes_from_input D _ i rem o o' h hn
    rw [ht] at hD
    obtain ⟨c, rfl, -⟩ := L.generalized _ _ _ (denotes_leaf hD (by simp) (by simp)).2.2
    rw [gen o' c hn ht, (same c).2 (h2 o' c hn ht)]

/-- C133 is not empty: asn1-rs as modelled in `Verif/Calendar.lean` is such a library, with any alphabets. -/
theorem C133_library (charset : StrKind → Bytes → Bool) : DateLibrary (Calendar.deps charset) Calendar.date :=
  Calendar.dateLibrary charset

/-- The parts of a time are those of a calendar that does not compare days with months, and takes zero. -/
def Spec.Clock.Possible (c : Clock) : Prop := c.month ≤ 12 ∧ c.day ≤ 31 ∧ c.hour ≤ 23 ∧ c.minute ≤ 59 ∧ c.second ≤ 59

instance (c : Clock) : Decidable c.Possible := by unfold Spec.Clock.Possible; infer_instance

private theorem valid_possible (c : Clock) :
    Calendar.valid c.month c.day c.hour c.minute c.second = decide c.Possible := by
  rw [Bool.eq_iff_iff]
  rw [decide_eq_true_iff]
  simp [Calendar.valid, Spec.Clock.Possible, and_assoc]

/-- C133: which times the modelled asn1-rs takes: in a UTCTime with `Z`, with or without seconds, and in a GeneralizedTime
as it is displayed, all parts are compared with their greatest value, and nothing else is checked.  Two octets in place
of the seconds that are not both digits are taken for zero seconds. -/
theorem C133_calendar_times (c : Clock) (h : c.InRange) :
    (c.year < 100 →
      Calendar.utcFromBytes (c.shortDigits ++ two c.second ++ [0x5a]) =
        (if c.Possible then some { c with milli := none, zone := .z } else none) ∧
      Calendar.utcFromBytes (c.shortDigits ++ [0x5a]) =
        (if { c with second := 0 }.Possible then some { c with second := 0, milli := none, zone := .z } else none) ∧
      ∀ x y, Calendar.decodeDecimal x y = none → Calendar.utcFromBytes (c.shortDigits ++ [x, y] ++ [0x5a]) =
        (if { c with second := 0 }.Possible then some { c with second := 0, milli := none, zone := .z } else none)) ∧
    ((∀ v, c.milli = some v → v < 1000) →
      Calendar.generalizedFromBytes c.text = if c.Possible then some c.reread else none) := by
  obtain ⟨y, m, d, hh, n, s, mi, zo⟩ := c
  obtain ⟨h1, h2, h3, h4, h5, h6⟩ := h
  simp only at h1 h2 h3 h4 h5 h6
  have hv := valid_possible ⟨y, m, d, hh, n, s, mi, zo⟩
  have hv0 := valid_possible ⟨y, m, d, hh, n, 0, mi, zo⟩
  simp only at hv hv0
  refine ⟨fun hy => ⟨?_, ?_, fun a b hab => ?_⟩, fun hm => ?_⟩
  · simp only at hy
    simp only [Clock.shortDigits, two, List.cons_append, List.nil_append, Calendar.utcFromBytes,
      Calendar.decodeDecimal_two _ hy, Calendar.decodeDecimal_two _ h2, Calendar.decodeDecimal_two _ h3,
      Calendar.decodeDecimal_two _ h4, Calendar.decodeDecimal_two _ h5, Calendar.decodeDecimal_two _ h6, Calendar.seconds,
      Option.bind_eq_bind, Option.bind_some, Option.getD_some, hv, Calendar.zoneOf]
    by_cases hp : Clock.Possible ⟨y, m, d, hh, n, s, mi, zo⟩ <;> simp [hp]
  · simp only at hy
    simp only [Clock.shortDigits, two, List.cons_append, List.nil_append, Calendar.utcFromBytes,
      Calendar.decodeDecimal_two _ hy, Calendar.decodeDecimal_two _ h2, Calendar.decodeDecimal_two _ h3,
      Calendar.decodeDecimal_two _ h4, Calendar.decodeDecimal_two _ h5, Calendar.seconds,
      Option.bind_eq_bind, Option.bind_some, hv0, Calendar.zoneOf]
    by_cases hp : Clock.Possible ⟨y, m, d, hh, n, 0, mi, zo⟩ <;> simp [hp]
  · simp only at hy
    simp only [Clock.shortDigits, two, List.cons_append, List.nil_append, Calendar.utcFromBytes,
      Calendar.decodeDecimal_two _ hy, Calendar.decodeDecimal_two _ h2, Calendar.decodeDecimal_two _ h3,
      Calendar.decodeDecimal_two _ h4, Calendar.decodeDecimal_two _ h5, Calendar.seconds, hab, Option.getD_none,
      Option.bind_eq_bind, Option.bind_some, hv0, Calendar.zoneOf]
    by_cases hp : Clock.Possible ⟨y, m, d, hh, n, 0, mi, zo⟩ <;> simp [hp]
  · split
    · rename_i hp
      exact Calendar.generalizedFromBytes_text _ ⟨h1, h2, h3, h4, h5, h6⟩ (by simp only; rw [hv]; simpa using hp) hm
    · rename_i hp
      cases hg : Calendar.generalizedFromBytes (Clock.text ⟨y, m, d, hh, n, s, mi, zo⟩) with
      | none => rfl
      | some c' =>
        exfalso
        simp only [Clock.text, Clock.longDigits, two, List.cons_append, List.nil_append, Calendar.generalizedFromBytes,
          Calendar.decodeDecimal_two _ h2, Calendar.decodeDecimal_two _ h3, Calendar.decodeDecimal_two _ h4,
          Calendar.decodeDecimal_two _ h5, Calendar.decodeDecimal_two _ h6, Calendar.seconds,
          Option.bind_eq_bind, Option.bind_some, Option.getD_some, hv, Option.bind_eq_some_iff] at hg
        simp [hp] at hg

example := C133_calendar_times ⟨92, 5, 21, 23, 42, 0, none, .z⟩ ⟨by decide, by decide, by decide, by decide, by decide, by decide⟩

/-- C133: the errors of the modelled asn1-rs. -/
theorem C133_calendar_errors (charset : StrKind → Bytes → Bool) (k : Bool) (b : Bytes) (e : BerError) :
    ((Calendar.deps charset).utcTime k b = .error e →
      e = if b.all isVisibleByte then .invalidValue 23 else .stringInvalidCharset) ∧
    ((Calendar.deps charset).generalizedTime k b = .error e →
      e = if b.all isVisibleByte then .invalidValue 24 else .stringInvalidCharset) := by
  constructor <;>
  · intro h
    simp only [Calendar.deps, Calendar.fromAny] at h
    split at h
    · rename_i hb
      rw [if_pos hb]
      split at h
      · cases h
      · cases h; rfl
    · rename_i hb
      rw [if_neg hb]
      cases h; rfl

example := (C133_calendar_errors (fun _ _ => true) false [0x07] .stringInvalidCharset).1 rfl

/-- C133: how the modelled asn1-rs takes a difference from UTC: hours and minutes are not compared with anything, and the
sign belongs to the hours alone, so that `-0030` and `+0030` are the same difference. -/
theorem C133_calendar_zones (c : Clock) (h : c.InRange) (hp : c.Possible) (zh zm : Nat) (h1 : zh < 100) (h2 : zm < 100) :
    (c.year < 100 →
      Calendar.utcFromBytes (c.shortDigits ++ two c.second ++ [0x2b] ++ two zh ++ two zm) =
        some { c with milli := none, zone := .offset zh zm } ∧
      Calendar.utcFromBytes (c.shortDigits ++ two c.second ++ [0x2d] ++ two zh ++ two zm) =
        some { c with milli := none, zone := .offset (-zh) zm } ∧
      Calendar.utcFromBytes (c.shortDigits ++ two c.second) = none) ∧
    Calendar.generalizedFromBytes (c.longDigits ++ [0x2b] ++ two zh ++ two zm) =
      some { c with milli := none, zone := .offset zh zm } ∧
    Calendar.generalizedFromBytes (c.longDigits ++ [0x2d] ++ two zh ++ two zm) =
      some { c with milli := none, zone := .offset (-zh) zm } ∧
    Calendar.generalizedFromBytes c.longDigits = some { c with milli := none, zone := .undefined } := by
  obtain ⟨y, m, d, hh, n, s, mi, zo⟩ := c
  obtain ⟨g1, g2, g3, g4, g5, g6⟩ := h
  simp only at g1 g2 g3 g4 g5 g6
  have hv := valid_possible ⟨y, m, d, hh, n, s, mi, zo⟩
  simp only [hp, decide_true] at hv
  have gy : y / 100 < 100 := by omega
  have ge : y / 100 * 100 + y % 100 = y := by omega
  have gl : Calendar.decodeDecimal (digit (y / 10)) (digit y) = some (y % 100) := by
    have := Calendar.decodeDecimal_two (y % 100) (Nat.mod_lt _ (by decide))
    rw [← this]
    unfold digit
    rw [show y % 100 / 10 % 10 = y / 10 % 10 by omega, show y % 100 % 10 = y % 10 by omega]
  refine ⟨fun hy => ⟨?_, ?_, ?_⟩, ?_, ?_, ?_⟩
  case refine_1 =>
    simp only at hy
    simp [Clock.shortDigits, two, Calendar.utcFromBytes,
      Calendar.decodeDecimal_two _ hy, Calendar.decodeDecimal_two _ g2, Calendar.decodeDecimal_two _ g3,
      Calendar.decodeDecimal_two _ g4, Calendar.decodeDecimal_two _ g5, Calendar.decodeDecimal_two _ g6, Calendar.seconds,
      Calendar.decodeDecimal_two _ h1, Calendar.decodeDecimal_two _ h2, hv, Calendar.zoneOf]
  case refine_2 =>
    simp only at hy
    simp [Clock.shortDigits, two, Calendar.utcFromBytes,
      Calendar.decodeDecimal_two _ hy, Calendar.decodeDecimal_two _ g2, Calendar.decodeDecimal_two _ g3,
      Calendar.decodeDecimal_two _ g4, Calendar.decodeDecimal_two _ g5, Calendar.decodeDecimal_two _ g6, Calendar.seconds,
      Calendar.decodeDecimal_two _ h1, Calendar.decodeDecimal_two _ h2, hv, Calendar.zoneOf]
  case refine_3 =>
    simp only at hy
    simp [Clock.shortDigits, two, Calendar.utcFromBytes,
      Calendar.decodeDecimal_two _ hy, Calendar.decodeDecimal_two _ g2, Calendar.decodeDecimal_two _ g3,
      Calendar.decodeDecimal_two _ g4, Calendar.decodeDecimal_two _ g5, Calendar.decodeDecimal_two _ g6, Calendar.seconds,
      Calendar.zoneOf]
  all_goals
    simp [Clock.longDigits, two, Calendar.generalizedFromBytes, Calendar.decodeDecimal_two _ gy, gl,
      Calendar.decodeDecimal_two _ g2, Calendar.decodeDecimal_two _ g3,
      Calendar.decodeDecimal_two _ g4, Calendar.decodeDecimal_two _ g5, Calendar.decodeDecimal_two _ g6, Calendar.seconds,
      Calendar.decodeDecimal_two _ h1, Calendar.decodeDecimal_two _ h2, hv, Calendar.zoneOf, Calendar.fracZone, ge]

example := C133_calendar_zones ⟨92, 5, 21, 23, 42, 0, none, .z⟩ ⟨by decide, by decide, by decide, by decide, by decide, by decide⟩
  (by decide) 0 30 (by decide) (by decide)

/-- C133: how the modelled asn1-rs takes a fraction: three digits are milliseconds, after a full stop or a comma; four
digits are taken only at the end of the contents, and then for a number of up to 9999 milliseconds. -/
theorem C133_calendar_fractions (c : Clock) (h : c.InRange) (hp : c.Possible) (v : Nat) (hv : v < 10000) (sign : UInt8)
    (hs : sign = 0x2e ∨ sign = 0x2c) :
    (v < 1000 → Calendar.generalizedFromBytes (c.longDigits ++ [sign] ++ (digit (v / 100) :: two v) ++ [0x5a]) =
      some { c with milli := some v, zone := .z }) ∧
    Calendar.generalizedFromBytes (c.longDigits ++ [sign] ++ two (v / 100) ++ two v) =
      some { c with milli := some v, zone := .undefined } ∧
    (∀ z rest, Calendar.generalizedFromBytes (c.longDigits ++ [sign] ++ two (v / 100) ++ two v ++ z :: rest) = none) ∧
    Calendar.generalizedFromBytes (c.longDigits ++ [sign] ++ [0x5a]) = none := by
  obtain ⟨y, m, d, hh, n, s, mi, zo⟩ := c
  obtain ⟨g1, g2, g3, g4, g5, g6⟩ := h
  simp only at g1 g2 g3 g4 g5 g6
  have hq := valid_possible ⟨y, m, d, hh, n, s, mi, zo⟩
  simp only [hp, decide_true] at hq
  have gy : y / 100 < 100 := by omega
  have ge : y / 100 * 100 + y % 100 = y := by omega
  have gl : Calendar.decodeDecimal (digit (y / 10)) (digit y) = some (y % 100) := by
    have := Calendar.decodeDecimal_two (y % 100) (Nat.mod_lt _ (by decide))
    rw [← this]
    unfold digit
    rw [show y % 100 / 10 % 10 = y / 10 % 10 by omega, show y % 100 % 10 = y % 10 by omega]
  have hd : ∀ k, (digit k).toNat = 48 + k % 10 := by
    intro k
    unfold digit
    rw [UInt8.toNat_ofNat', Nat.mod_eq_of_lt] <;> omega
  have hr : ∀ k, (48 ≤ (digit k).toNat ∧ (digit k).toNat ≤ 57) := fun k => by rw [hd]; omega
  have key : ∀ t, Calendar.generalizedFromBytes (Clock.longDigits ⟨y, m, d, hh, n, s, mi, zo⟩ ++ sign :: t) =
      (Calendar.fracZone (sign :: t)).map fun w => ⟨y, m, d, hh, n, s, w.1, w.2⟩ := by
    intro t
    simp [Clock.longDigits, two, Calendar.generalizedFromBytes, Calendar.decodeDecimal_two _ gy, gl,
      Calendar.decodeDecimal_two _ g2, Calendar.decodeDecimal_two _ g3,
      Calendar.decodeDecimal_two _ g4, Calendar.decodeDecimal_two _ g5, Calendar.decodeDecimal_two _ g6, Calendar.seconds,
      hq, ge]
    cases Calendar.fracZone (sign :: t) <;> rfl
  refine ⟨fun hv3 => ?_, ?_, fun z rest => ?_, ?_⟩
  · rw [List.append_assoc, List.append_assoc, List.singleton_append, key]
    simp [Calendar.fracZone, hs, two, Calendar.fracDigits, hr, Calendar.zoneOf]
    simp [Calendar.milliOf, hd]
    omega
  · rw [List.append_assoc, List.append_assoc, List.singleton_append, key]
    simp [Calendar.fracZone, hs, two, Calendar.fracDigits, hr]
    simp [Calendar.milliOf, hd]
    omega
  · rw [List.append_assoc, List.append_assoc, List.append_assoc, List.singleton_append, key]
    simp [Calendar.fracZone, hs, two, Calendar.fracDigits, hr]
  · rw [List.append_assoc, List.singleton_append, key]
    simp [Calendar.fracZone, hs, Calendar.fracDigits]

example := C133_calendar_fractions ⟨2020, 1, 2, 3, 4, 5, none, .z⟩ ⟨by decide, by decide, by decide, by decide, by decide, by decide⟩
  (by decide) 50 (by decide) 0x2c (.inr rfl)

/-- C133: the modelled asn1-rs takes a GeneralizedTime without seconds if `Z` follows, and refuses it if nothing follows. -/
theorem C133_calendar_no_seconds (c : Clock) (h : c.InRange) (hp : c.Possible) :
    Calendar.generalizedFromBytes (two (c.year / 100) ++ c.shortDigits ++ [0x5a]) =
      some { c with second := 0, milli := none, zone := .z } ∧
    Calendar.generalizedFromBytes (two (c.year / 100) ++ c.shortDigits) = none := by
  obtain ⟨y, m, d, hh, n, s, mi, zo⟩ := c
  obtain ⟨g1, g2, g3, g4, g5, g6⟩ := h
  simp only at g1 g2 g3 g4 g5 g6
  have hv := valid_possible ⟨y, m, d, hh, n, 0, mi, zo⟩
  have hp0 : Clock.Possible ⟨y, m, d, hh, n, 0, mi, zo⟩ := ⟨hp.1, hp.2.1, hp.2.2.1, hp.2.2.2.1, by simp⟩
  simp only [hp0, decide_true] at hv
  have gy : y / 100 < 100 := by omega
  have ge : y / 100 * 100 + y % 100 = y := by omega
  have gl : Calendar.decodeDecimal (digit (y / 10)) (digit y) = some (y % 100) := by
    have := Calendar.decodeDecimal_two (y % 100) (Nat.mod_lt _ (by decide))
    rw [← this]
    unfold digit
    rw [show y % 100 / 10 % 10 = y / 10 % 10 by omega, show y % 100 % 10 = y % 10 by omega]
  constructor <;>
    simp [Clock.shortDigits, two, Calendar.generalizedFromBytes, Calendar.decodeDecimal_two _ gy, gl,
      Calendar.decodeDecimal_two _ g2, Calendar.decodeDecimal_two _ g3,
      Calendar.decodeDecimal_two _ g4, Calendar.decodeDecimal_two _ g5, Calendar.seconds,
      hv, Calendar.zoneOf, Calendar.fracZone, ge]

example := C133_calendar_no_seconds ⟨2020, 1, 2, 3, 4, 5, none, .z⟩ ⟨by decide, by decide, by decide, by decide, by decide, by decide⟩
  (by decide)

/-! ## Examples, with the library of `Verif/Calendar.lean` -/

/-- The date library of `Verif/Calendar.lean`. -/
def Tests.DC : Deps := Calendar.deps fun _ _ => true

/-- The UTCTime of /repo/tests/der_parser.rs:295 is read and written with a four-digit year. -/
def Tests.utc : BerObject :=
  .mk { cls := .universal, constructed := false, tag := 23, length := .definite 11, rawTag := some [0x17] }
    (.utcTime (Calendar.date ⟨92, 5, 21, 23, 42, 0, none, .z⟩))

example : parseBer Tests.DC (short 0x17 (lit "9205212342Z")) = .ok ([], Tests.utc) := by rfl
example : toVec Tests.DC Tests.utc = .ok (short 0x17 (lit "00920521234200Z")) := by decide +kernel
example : ∀ r x, parseBer Tests.DC (short 0x17 (lit "00920521234200Z")) ≠ .ok (r, x) :=
  C133_utctime_lost Tests.DC Calendar.date (Calendar.dateLibrary _) (short 0x17 (lit "9205212342Z")) [] _ Tests.utc Tests.utc
    _ (by rfl) .self rfl (by decide +kernel) (by decide +kernel)

theorem timesKnown_DC : TimesKnown Tests.DC := by
  intro k c t; refine ⟨fun h => ?_, fun h => ?_⟩ <;>
  · simp only [Tests.DC, Calendar.deps, Calendar.fromAny] at h
    split at h
    · split at h <;> simp at h
    · simp at h

example : (∀ r x, parseDer Tests.DC (short 0x17 (lit "00920521234200Z")) ≠ .ok (r, x)) ∧
    ∀ r x, parseBer Tests.DC (short 0x17 (lit "00920521234200Z")) ≠ .ok (r, x) :=
  C133_der_utctime_lost Tests.DC Calendar.date (Calendar.dateLibrary _) timesKnown_DC (short 0x17 (lit "9205212342Z")) [] _
    Tests.utc Tests.utc _ (by rfl) .self rfl (by decide +kernel) (by decide +kernel)

/-- A GeneralizedTime one hour east of Greenwich comes back as the same hour in Greenwich. -/
def Tests.gen : BerObject :=
  .mk { cls := .universal, constructed := false, tag := 24, length := .definite 21, rawTag := some [0x18] }
    (.generalizedTime (Calendar.date ⟨2020, 1, 2, 3, 4, 5, some 0, .offset 1 0⟩))

example : parseBer Tests.DC (short 0x18 (lit "20200102030405.0+0100")) = .ok ([], Tests.gen) := by rfl
example : toVec Tests.DC Tests.gen = .ok (short 0x18 (lit "20200102030405.0Z")) := by decide +kernel
example : ¬ ∃ o', parseBer Tests.DC (short 0x18 (lit "20200102030405.0Z")) = .ok ([], o') ∧ erase o' = erase Tests.gen :=
  fun H => by
    have h := (C133_survives_iff Tests.DC Calendar.date (Calendar.dateLibrary _) (short 0x18 (lit "20200102030405.0+0100")) []
      (short 0x18 (lit "20200102030405.0Z")) Tests.gen (by rfl) (fun o' c v hn hc hv => by
        cases hn
        rw [← Calendar.date_inj (Content.generalizedTime.inj hc)] at hv
        obtain rfl := Option.some.inj hv
        decide) (by decide +kernel) (by decide +kernel)).1 H
    exact absurd (h.2 Tests.gen _ .self rfl).1 (by decide)

/-- Fifty milliseconds become five hundred. -/
example : (Clock.reread ⟨2020, 1, 2, 3, 4, 5, some 50, .z⟩).milli = some 500 := rfl
example : (Tests.DC.generalizedTime false (lit "20200102030405.05Z")).toOption =
    some (Calendar.date ⟨2020, 1, 2, 3, 4, 5, some 50, .z⟩) := by decide +kernel
example : Tests.DC.display (Calendar.date ⟨2020, 1, 2, 3, 4, 5, some 50, .z⟩) = lit "20200102030405.50Z" := by decide +kernel

/-- /repo/tests/der_parser.rs:295-306, 308-315 and 321-332. -/
example : Tests.DC.utcTime false (lit "9205212342Z") = .ok (Calendar.date ⟨92, 5, 21, 23, 42, 0, none, .z⟩) := by rfl
example : Tests.DC.generalizedTime false (lit "199205212342Z") = .ok (Calendar.date ⟨1992, 5, 21, 23, 42, 0, none, .z⟩) := by rfl

end Verif
