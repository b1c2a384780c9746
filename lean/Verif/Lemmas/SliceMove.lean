import Verif.Lemmas.Slice
/-!
# The parsers on slices do the same at every address
-/
namespace Verif.Lemmas
open Outcome Spec

/-- Every part of `s` holds the same octets as the part of `mem'` that lies `d` further on. -/
def Same (mem mem' : Bytes) (d : Nat) (s : Slice) : Prop :=
  ∀ r, PartOf r s → (moveSlice d r).read mem' = r.read mem

theorem same_of_read {mem mem' : Bytes} {d : Nat} {s : Slice}
    (h : (moveSlice d s).read mem' = s.read mem) : Same mem mem' d s := by
  intro r ⟨h1, h2⟩
  have e (m : Bytes) (t u : Slice) (a : t.off ≤ u.off) (b : u.off + u.len ≤ t.off + t.len) :
      u.read m = ((t.read m).drop (u.off - t.off)).take u.len := by
    simp only [Slice.read, List.drop_take, List.drop_drop, List.take_take]
    rw [show t.off + (u.off - t.off) = u.off by omega,
      show min u.len (t.len - (u.off - t.off)) = u.len by omega]
  rw [e mem' (moveSlice d s) (moveSlice d r) (by simp only [moveSlice]; omega)
    (by simp only [moveSlice]; omega), h, e mem s r h1 h2]
  simp only [moveSlice]
  rw [show r.off + d - (s.off + d) = r.off - s.off by omega]

theorem Same.self {mem mem' : Bytes} {d : Nat} {s : Slice} (h : Same mem mem' d s) :
    (moveSlice d s).read mem' = s.read mem := h s ⟨Nat.le_refl _, Nat.le_refl _⟩

theorem Same.sub {mem mem' : Bytes} {d : Nat} {s r : Slice} (h : Same mem mem' d s)
    (hr : PartOf r s) : Same mem mem' d r := by
  intro t ht
  exact h t ⟨Nat.le_trans hr.1 ht.1, Nat.le_trans ht.2 hr.2⟩

theorem Tail.within {s r : Slice} (h : Tail s r) : PartOf r s := by
  simp only [Tail, PartOf] at *; omega

theorem within_trans {a b c : Slice} (h : PartOf a b) (h' : PartOf b c) : PartOf a c := by
  simp only [PartOf] at *; omega

theorem splitAt_move {ε : Type} {d : Nat} {s : Slice} {n : Nat} :
    Sim (fun a b => b = (moveSlice d a.1, moveSlice d a.2) ∧ PartOf a.1 s ∧ Tail s a.2 ∧
        a.1 = ⟨s.off, n⟩)
      (s.splitAt n : Outcome ε (Slice × Slice)) ((moveSlice d s).splitAt n) := by
  have hl : (moveSlice d s).len = s.len := rfl
  simp only [Slice.splitAt, hl]
  split
  · simp [Sim]
  · simp only [Sim, moveSlice, PartOf, Tail, Prod.mk.injEq, Slice.mk.injEq, and_true, true_and]
    omega

theorem take_move {E : Type} {d : Nat} {s : Slice} {n : Nat} :
    Sim (fun a b => b = (moveSlice d a.1, moveSlice d a.2) ∧ Tail s a.1 ∧ PartOf a.2 s)
      (s.take n : Outcome (NomErr E) (Slice × Slice)) ((moveSlice d s).take n) := by
  have hl : (moveSlice d s).len = s.len := rfl
  simp only [Slice.take, hl]
  split
  · simp [Sim]
  · simp only [Sim, moveSlice, PartOf, Tail, Prod.mk.injEq, Slice.mk.injEq, and_true]
    omega

theorem ident_move {mem mem' : Bytes} {d : Nat} {s : Slice} (h : Same mem mem' d s) :
    Sim (fun a b => b = (moveSlice d a.1, { a.2 with raw := moveSlice d a.2.raw }) ∧ Tail s a.1)
      (sParseIdentifier mem s) (sParseIdentifier mem' (moveSlice d s)) := by
  simp only [sParseIdentifier, h.self]
  cases s.read mem with
  | nil => simp [Sim]
  | cons b rest =>
    refine Sim.bind_same fun r _ => ?_
    refine Sim.bind splitAt_move ?_
    rintro a _ ⟨rfl, -, h2, -⟩
    exact ⟨rfl, h2⟩

theorem length_move {mem mem' : Bytes} {d : Nat} {s : Slice} (h : Same mem mem' d s)
    (onIndef : Outcome (NomErr BerError) Length) :
    Sim (fun a b => b = (moveSlice d a.1, a.2) ∧ Tail s a.1)
      (sParseLength onIndef mem s) (sParseLength onIndef mem' (moveSlice d s)) := by
  simp only [sParseLength, h.self]
  cases s.read mem with
  | nil => simp [Sim]
  | cons b rest =>
    refine Sim.bind splitAt_move ?_
    rintro a _ ⟨rfl, -, h2, -⟩
    simp only
    split
    · exact ⟨rfl, h2⟩
    · split
      · exact Sim.map_same fun _ _ => ⟨rfl, h2⟩
      · split
        · simp [Sim]
        · refine Sim.bind take_move ?_
          rintro c _ ⟨rfl, h3, h4⟩
          simp only [h _ (within_trans h4 h2.within)]
          cases bytesToU64 0 (c.2.read mem) with
          | none => simp [Sim]
          | some n => exact ⟨rfl, h2.trans h3⟩

theorem headerBer_move {mem mem' : Bytes} {d : Nat} {s : Slice} (h : Same mem mem' d s) :
    Sim (fun a b => b = (moveSlice d a.1, moveHeader d a.2) ∧ Tail s a.1)
      (sHeaderFromBer mem s) (sHeaderFromBer mem' (moveSlice d s)) := by
  refine Sim.bind (ident_move h) ?_
  rintro a _ ⟨rfl, h2⟩
  refine Sim.bind (length_move (h.sub h2.within) _) ?_
  rintro c _ ⟨rfl, h4⟩
  exact ⟨rfl, h2.trans h4⟩

theorem headerDer_move {mem mem' : Bytes} {d : Nat} {s : Slice} (h : Same mem mem' d s) :
    Sim (fun a b => b = (moveSlice d a.1, moveHeader d a.2) ∧ Tail s a.1)
      (sHeaderFromDer mem s) (sHeaderFromDer mem' (moveSlice d s)) := by
  refine Sim.bind (ident_move h) ?_
  rintro a _ ⟨rfl, h2⟩
  refine Sim.bind (length_move (h.sub h2.within) _) ?_
  rintro c _ ⟨rfl, h4⟩
  exact ⟨rfl, h2.trans h4⟩

theorem skipLoop_move {mem mem' : Bytes} {d : Nat}
    {skip skip' : SHeader → Slice → SRes BerError Bool}
    (hskip : ∀ h s, Same mem mem' d s →
      Sim (fun a b => b = (moveSlice d a.1, a.2) ∧ Tail s a.1) (skip h s)
        (skip' (moveHeader d h) (moveSlice d s))) :
    ∀ (fuel : Nat) {s : Slice}, Same mem mem' d s →
      Sim (fun a b => b = (moveSlice d a.1, a.2) ∧ Tail s a.1) (sSkipLoop mem skip fuel s)
        (sSkipLoop mem' skip' fuel (moveSlice d s))
  | 0, _, _ => by simp [sSkipLoop, Sim]
  | fuel + 1, s, h => by
    refine Sim.bind (headerBer_move h) ?_
    rintro a _ ⟨rfl, h2⟩
    refine Sim.bind (hskip _ _ (h.sub h2.within)) ?_
    rintro c _ ⟨rfl, h4⟩
    have ht := h2.trans h4
    simp only
    split
    · exact ⟨rfl, ht⟩
    · exact (skipLoop_move hskip fuel (h.sub ht.within)).mono fun x y k => ⟨k.1, ht.trans k.2⟩

theorem skipContent_move {mem mem' : Bytes} {d : Nat} : ∀ (depth : Nat) (h : SHeader) (s : Slice),
    Same mem mem' d s → Sim (fun a b => b = (moveSlice d a.1, a.2) ∧ Tail s a.1)
      (sSkipContent mem depth h s) (sSkipContent mem' depth (moveHeader d h) (moveSlice d s))
  | 0, _, _, _ => by simp [sSkipContent, Sim]
  | depth + 1, h, s, hs => by
    have hlen : (moveHeader d h).length = h.length := rfl
    have htag : (moveHeader d h).tag = h.tag := rfl
    have hcon : (moveHeader d h).constructed = h.constructed := rfl
    have hl : (moveSlice d s).len = s.len := rfl
    simp only [sSkipContent, hlen, htag, hcon, hl]
    cases h.length with
    | definite l =>
      simp only
      split
      · exact ⟨rfl, Tail.refl s⟩
      · refine Sim.bind take_move ?_
        rintro a _ ⟨rfl, h2, -⟩
        exact ⟨rfl, h2⟩
    | indefinite =>
      simp only
      split
      · exact skipLoop_move (skipContent_move depth) _ hs
      · simp [Sim]

theorem getContent_move {mem mem' : Bytes} {d depth : Nat} {h : SHeader} {s : Slice}
    (hs : Same mem mem' d s) :
    Sim (fun a b => b = (moveSlice d a.1, moveSlice d a.2) ∧ Tail s a.1 ∧ PartOf a.2 s)
      (sGetObjectContent mem depth h s)
      (sGetObjectContent mem' depth (moveHeader d h) (moveSlice d s)) := by
  refine Sim.bind (skipContent_move depth h s hs) ?_
  rintro a _ ⟨rfl, h2⟩
  have ho : ((moveSlice d s).offset (moveSlice d a.1) : Outcome (NomErr BerError) Nat)
      = s.offset a.1 := by
    simp only [Slice.offset, moveSlice, Nat.add_lt_add_iff_right, Nat.add_sub_add_right]
  have hlen : (moveHeader d h).length = h.length := rfl
  simp only [ho, hlen]
  refine Sim.bind_same fun n _ => ?_
  refine Sim.bind splitAt_move ?_
  rintro p _ ⟨rfl, h3, h4, h5⟩
  have hl : (moveSlice d p.1).len = p.1.len := rfl
  simp only [hl]
  split
  · split
    · simp [Sim]
    · refine Sim.bind splitAt_move ?_
      rintro q _ ⟨rfl, h6, -, -⟩
      exact ⟨rfl, h4, within_trans h6 h3⟩
  · exact ⟨rfl, h4, h3⟩

theorem any_move {mem mem' : Bytes} {d : Nat} {s : Slice} (hs : Same mem mem' d s) :
    Sim (fun a b => b = (moveSlice d a.1, moveAny d a.2) ∧ Tail s a.1 ∧ PartOf a.2.data s)
      (sAnyFromBer mem s) (sAnyFromBer mem' (moveSlice d s)) := by
  refine Sim.bind (headerBer_move hs) ?_
  rintro a _ ⟨rfl, h2⟩
  refine Sim.bind (getContent_move (hs.sub h2.within)) ?_
  rintro c _ ⟨rfl, h4, h5⟩
  exact ⟨rfl, h2.trans h4, within_trans h5 h2.within⟩

theorem items_move {mem mem' : Bytes} {d : Nat} {conv conv' : SAny → Res SObject}
    (hconv : ∀ a, Same mem mem' d a.data →
      Sim (fun o o' => o' = moveObject d o) (conv a) (conv' (moveAny d a))) :
    ∀ (fuel : Nat) {s : Slice}, Same mem mem' d s →
      Sim (fun l l' => l' = moveMembers d l) (sCollectItems mem conv fuel s)
        (sCollectItems mem' conv' fuel (moveSlice d s))
  | 0, _, _ => by simp [sCollectItems, Sim]
  | fuel + 1, s, hs => by
    have hl : (moveSlice d s).len = s.len := rfl
    simp only [sCollectItems, hl]
    split
    · simp [Sim, moveMembers]
    · refine Sim.bind ((any_move hs).mapErr errOfNom) ?_
      rintro a _ ⟨rfl, h2, h3⟩
      refine Sim.bind (hconv _ (hs.sub h3)) ?_
      rintro o _ rfl
      refine Sim.bind (items_move hconv fuel (hs.sub h2.within)) ?_
      rintro l _ rfl
      simp [Sim, moveMembers]

theorem content_move {mem mem' : Bytes} {d : Nat} {D : Deps} {conv conv' : SAny → Res SObject}
    (hconv : ∀ a, Same mem mem' d a.data →
      Sim (fun o o' => o' = moveObject d o) (conv a) (conv' (moveAny d a)))
    {a : SAny} (ha : Same mem mem' d a.data) :
    Sim (fun x x' => x' = moveContent d x) (sUniversalContent mem D conv a)
      (sUniversalContent mem' D conv' (moveAny d a)) := by
  have hct : (moveAny d a).header.constructed = a.header.constructed := rfl
  have htg : (moveAny d a).header.tag = a.header.tag := rfl
  have hdt : (moveAny d a).data.read mem' = a.data.read mem := ha.self
  have hln : (moveAny d a).data.len = a.data.len := rfl
  have hda : (moveAny d a).data = moveSlice d a.data := rfl
  have hcc : ((moveAny d a).header.read mem').assertConstructed
      = (a.header.read mem).assertConstructed := rfl
  have hbo : ((moveAny d a).read mem').bool = (a.read mem).bool := by
    simp only [Any.bool, SAny.read, hdt]; rfl
  have hen : ((moveAny d a).read mem').enumerated = (a.read mem).enumerated := by
    simp only [Any.enumerated, SAny.read, hdt]; rfl
  simp only [sUniversalContent, hct, htg, hdt, hln, hcc, hbo, hen]
  cases uKind a.header.tag <;> simp only
  case bitString =>
    cases a.data.read mem with
    | nil => simp [Sim]
    | cons b rest =>
      simp only
      split
      · simp [Sim]
      · refine Sim.bind splitAt_move ?_
        rintro p _ ⟨rfl, -, -, -⟩
        simp [Sim, moveContent]
  case bmpString =>
    split
    · simp [Sim]
    · split
      · simp [Sim]
      · split
        · simp [Sim, moveContent, hda]
        · simp [Sim]
  case boolean => exact Sim.map_same fun _ _ => by simp [moveContent]
  case enumerated => exact Sim.map_same fun _ _ => by simp [moveContent]
  case generalizedTime => exact Sim.map_same fun _ _ => by simp [moveContent]
  case utcTime => exact Sim.map_same fun _ _ => by simp [moveContent]
  case str k =>
    split
    · simp [Sim]
    · split
      · split
        · simp [Sim, moveContent, hda]
        · simp [Sim]
      · simp [Sim]
  case sequence =>
    refine Sim.bind_same fun _ _ => ?_
    exact Sim.map (items_move hconv _ ha) fun l l' h => by simp [moveContent, h]
  case set =>
    refine Sim.bind_same fun _ _ => ?_
    exact Sim.map (items_move hconv _ ha) fun l l' h => by simp [moveContent, h]
  case universalString =>
    split
    · simp [Sim]
    · simp [Sim, moveContent, hda]
  all_goals simp [Sim, moveContent, hda]

theorem object_move {mem mem' : Bytes} {d : Nat} {D : Deps} : ∀ (depth : Nat) (a : SAny),
    Same mem mem' d a.data →
    Sim (fun o o' => o' = moveObject d o) (sObjectFromAny mem D depth a)
      (sObjectFromAny mem' D depth (moveAny d a))
  | 0, _, _ => by simp [sObjectFromAny, Sim]
  | depth + 1, a, ha => by
    have h := content_move (D := D) (object_move (D := D) depth) ha
    have hc : (moveHeader d a.header).cls = a.header.cls := rfl
    have hh : (moveAny d a).header = moveHeader d a.header := rfl
    simp only [sObjectFromAny, hh, hc]
    split
    · simp [Sim, moveObject, moveContent]
    · exact Sim.map h fun x x' hx => by simp [moveObject, hx]

theorem parseBerRecursive_move {mem mem' : Bytes} {d : Nat} {D : Deps} {n : Nat} {s : Slice}
    (hs : Same mem mem' d s) :
    Sim (fun a b => b = (moveSlice d a.1, moveObject d a.2))
      (sParseBerRecursive mem D n s) (sParseBerRecursive mem' D n (moveSlice d s)) := by
  simp only [sParseBerRecursive]
  split
  · simp [Sim]
  · refine Sim.bind (any_move hs) ?_
    rintro a _ ⟨rfl, -, h3⟩
    refine Sim.bind ((object_move n a.2 (hs.sub h3)).mapErr _) ?_
    rintro o _ rfl
    simp [Sim]

theorem readAs_move {mem mem' : Bytes} {d : Nat} {D : Deps} {s : Slice} {tag : Nat} {len : Length}
    {cons : Bool} {n : Nat} (hs : Same mem mem' d s) :
    Sim (fun a b => b = (moveSlice d a.1, moveContent d a.2))
      (sReadElementContentAs mem D s tag len cons n)
      (sReadElementContentAs mem' D (moveSlice d s) tag len cons n) := by
  have hh : moveHeader d (SHeader.new .universal cons tag len) = SHeader.new .universal cons tag len := rfl
  have go : Sim (fun a b => b = (moveSlice d a.1, moveContent d a.2))
      (sGetObjectContent mem n (SHeader.new .universal cons tag len) s >>? fun r =>
        liftRes (sObjectFromAny mem D n ⟨SHeader.new .universal cons tag len, r.2⟩) >>? fun o =>
          .ok (r.1, o.content))
      (sGetObjectContent mem' n (SHeader.new .universal cons tag len) (moveSlice d s) >>? fun r =>
        liftRes (sObjectFromAny mem' D n ⟨SHeader.new .universal cons tag len, r.2⟩) >>? fun o =>
          .ok (r.1, o.content)) := by
    rw [← hh]
    refine Sim.bind (getContent_move hs) ?_
    rintro a _ ⟨rfl, -, h3⟩
    refine Sim.bind ((object_move n ⟨_, a.2⟩ (hs.sub h3)).mapErr _) ?_
    rintro o _ rfl
    cases o
    simp [Sim, moveObject, SObject.content]
  have hl : (moveSlice d s).len = s.len := rfl
  simp only [sReadElementContentAs, hl]
  cases len with
  | definite l =>
    simp only
    split
    · simp [Sim]
    · split
      · simp [Sim]
      · exact go
  | indefinite => exact go

theorem parseBerWithTag_move {mem mem' : Bytes} {d : Nat} {D : Deps} {tag : Nat} {s : Slice}
    (hs : Same mem mem' d s) :
    Sim (fun a b => b = (moveSlice d a.1, moveObject d a.2))
      (sParseBerWithTag mem D tag s) (sParseBerWithTag mem' D tag (moveSlice d s)) := by
  refine Sim.bind (headerBer_move hs) ?_
  rintro a _ ⟨rfl, h2⟩
  refine Sim.bind_same fun _ _ => ?_
  refine Sim.bind (readAs_move (hs.sub h2.within)) ?_
  rintro c _ rfl
  simp [Sim, moveObject]

theorem derBits_move {mem mem' : Bytes} {d : Nat} {s : Slice} {l : Nat} (hs : Same mem mem' d s) :
    Sim (fun a b => b = (moveSlice d a.1, moveContent d a.2)) (sDerReadContentBitstring mem s l)
      (sDerReadContentBitstring mem' (moveSlice d s) l) := by
  simp only [sDerReadContentBitstring, hs.self]
  cases s.read mem with
  | nil => simp [Sim]
  | cons b rest =>
    refine Sim.bind splitAt_move ?_
    rintro p _ ⟨rfl, -, h2, -⟩
    simp only
    split
    · simp [Sim]
    · split
      · simp [Sim]
      · refine Sim.bind take_move ?_
        rintro r _ ⟨rfl, -, h4⟩
        simp only [hs _ (within_trans h4 h2.within)]
        split
        · cases (r.2.read mem)[l - 2]? with
          | none => simp [Sim]
          | some last =>
            simp only
            split <;> simp [Sim, moveContent]
        · simp [Sim, moveContent]

theorem derReadAs_move {mem mem' : Bytes} {d : Nat} {D : Deps} {s : Slice} {tag : Nat}
    {len : Length} {cons : Bool} {n : Nat} (hs : Same mem mem' d s) :
    Sim (fun a b => b = (moveSlice d a.1, moveContent d a.2))
      (sDerReadElementContentAs mem D s tag len cons n)
      (sDerReadElementContentAs mem' D (moveSlice d s) tag len cons n) := by
  have hl : (moveSlice d s).len = s.len := rfl
  simp only [sDerReadElementContentAs, hl, hs.self]
  refine Sim.bind_same fun l _ => ?_
  split
  · simp [Sim]
  · split
    · split
      · simp [Sim]
      · exact derBits_move hs
    · exact Sim.bind_same fun _ _ => readAs_move hs

theorem derUnknown_move {mem mem' : Bytes} {d : Nat} {s : Slice} {h : SHeader} {n : Nat}
    (hs : Same mem mem' d s) :
    Sim (fun a b => b = (moveSlice d a.1, moveObject d a.2)) (sDerUnknown mem s h n)
      (sDerUnknown mem' (moveSlice d s) (moveHeader d h) n) := by
  refine Sim.bind (getContent_move hs) ?_
  rintro a _ ⟨rfl, -, -⟩
  simp [Sim, moveObject, moveContent, moveAny]

theorem derBody_move {mem mem' : Bytes} {d : Nat} {D : Deps} {s : Slice} {h : SHeader} {n : Nat}
    (hs : Same mem mem' d s) :
    Sim (fun a b => b = (moveSlice d a.1, moveObject d a.2))
      (sDerReadElementContentRecursive mem D s h n)
      (sDerReadElementContentRecursive mem' D (moveSlice d s) (moveHeader d h) n) := by
  have hu := derUnknown_move (h := h) (n := n) hs
  have ha := derReadAs_move (D := D) (tag := h.tag) (len := h.length) (cons := h.constructed)
    (n := n) hs
  have hc : (moveHeader d h).cls = h.cls := rfl
  have htag : (moveHeader d h).tag = h.tag := rfl
  have hlen : (moveHeader d h).length = h.length := rfl
  have hcons : (moveHeader d h).constructed = h.constructed := rfl
  simp only [sDerReadElementContentRecursive, hc, htag, hlen, hcons]
  split
  · exact hu
  · revert ha
    generalize sDerReadElementContentAs mem D s h.tag h.length h.constructed n = x
    generalize sDerReadElementContentAs mem' D (moveSlice d s) h.tag h.length h.constructed n = y
    intro ha
    cases x <;> cases y <;> simp only [Sim] at ha
    · subst ha; simp [Sim, moveObject]
    · subst ha
      split <;> simp_all [Sim]
    · trivial
    · trivial

theorem parseDerRecursive_move {mem mem' : Bytes} {d : Nat} {D : Deps} {n : Nat} {s : Slice}
    (hs : Same mem mem' d s) :
    Sim (fun a b => b = (moveSlice d a.1, moveObject d a.2))
      (sParseDerRecursive mem D n s) (sParseDerRecursive mem' D n (moveSlice d s)) := by
  refine Sim.bind (headerDer_move hs) ?_
  rintro a _ ⟨rfl, h2⟩
  have hb := derBody_move (D := D) (h := a.2) (n := n) (hs.sub h2.within)
  have hlen : (moveHeader d a.2).length = a.2.length := rfl
  simp only [hlen]
  cases a.2.length with
  | definite l =>
    simp only
    split
    · simp [Sim]
    · exact hb
  | indefinite => exact hb

theorem parseDerWithTag_move {mem mem' : Bytes} {d : Nat} {D : Deps} {tag : Nat} {s : Slice}
    (hs : Same mem mem' d s) :
    Sim (fun a b => b = (moveSlice d a.1, moveObject d a.2))
      (sParseDerWithTag mem D tag s) (sParseDerWithTag mem' D tag (moveSlice d s)) := by
  refine Sim.bind (headerDer_move hs) ?_
  rintro a _ ⟨rfl, h2⟩
  refine Sim.bind_same fun _ _ => ?_
  refine Sim.bind (derReadAs_move (hs.sub h2.within)) ?_
  rintro c _ rfl
  simp [Sim, moveObject]

end Verif.Lemmas
