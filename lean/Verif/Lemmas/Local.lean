import Verif.Multi
/-!
# Locality of parsers

`Reads p pre a`: parser `p` consumes exactly `pre`, whatever follows, and returns `a`.
`Local p`: every success of `p` is of this form.
-/
namespace Verif
open Outcome

variable {E α β γ : Type}

/-- `p` consumes exactly `pre` and returns `a`, whatever follows. -/
def Reads (p : Bytes → IRes E α) (pre : Bytes) (a : α) : Prop :=
  ∀ x, p (pre ++ x) = .ok (x, a)

/-- Every success of `p` consumes a prefix and does not depend on what follows it. -/
def Local (p : Bytes → IRes E α) : Prop :=
  ∀ i rem a, p i = .ok (rem, a) → ∃ pre, i = pre ++ rem ∧ Reads p pre a

theorem Reads.bind {p : Bytes → IRes E α} {f : α → Bytes → IRes E β} {pre pre' : Bytes} {a : α}
    {b : β} (hp : Reads p pre a) (hf : Reads (f a) pre' b) :
    Reads (fun i => p i >>? fun r => f r.2 r.1) (pre ++ pre') b := by
  intro x
  simp [List.append_assoc, hp (pre' ++ x), hf x, Outcome.bind]

theorem Local.bind {p : Bytes → IRes E α} {f : α → Bytes → IRes E β} (hp : Local p)
    (hf : ∀ a, Local (f a)) : Local (fun i => p i >>? fun r => f r.2 r.1) := by
  intro i rem b h
  obtain ⟨⟨i1, a⟩, h1, h2⟩ := bind_eq_ok.1 h
  obtain ⟨pre, rfl, r1⟩ := hp _ _ _ h1
  obtain ⟨pre', rfl, r2⟩ := hf _ _ _ _ h2
  exact ⟨pre ++ pre', by simp, r1.bind r2⟩

theorem Local.const (x : Outcome (NomErr E) α) :
    Local (fun i => x >>? fun a => .ok (i, a) : Bytes → IRes E α) := by
  intro i rem b h
  obtain ⟨a, h1, h2⟩ := bind_eq_ok.1 h
  simp at h2
  exact ⟨[], by simp [h2.1], by intro x; simp [h1, h2.2]⟩

theorem Local.err (e : NomErr E) : Local (fun _ => .err e : Bytes → IRes E α) := by
  intro i rem b h; simp at h

theorem Local.ok (a : α) : Local (fun i => .ok (i, a) : Bytes → IRes E α) := by
  intro i rem b h
  simp at h
  exact ⟨[], by simp [h.1], by intro x; simp [h.2]⟩

theorem Local.congr {p q : Bytes → IRes E α} (hp : Local p) (h : ∀ i, q i = p i) : Local q := by
  have : q = p := funext h
  rwa [this]

theorem Local.mapErr {F : Type} {p : Bytes → IRes E α} (g : NomErr E → NomErr F) (hp : Local p) :
    Local (fun i => (p i).mapErr g) := by
  intro i rem a h
  obtain ⟨pre, e, r⟩ := hp _ _ _ (mapErr_eq_ok.1 h)
  exact ⟨pre, e, fun x => by simp [r x]⟩

theorem Local.ite {p q : Bytes → IRes E α} {c : Prop} [Decidable c] (hp : Local p) (hq : Local q) :
    Local (fun i => if c then p i else q i) := by
  by_cases h : c
  · exact hp.congr fun i => by simp [h]
  · exact hq.congr fun i => by simp [h]

/-- A local parser returns a suffix of its input. -/
theorem Local.suffix {p : Bytes → IRes E α} (hp : Local p) {i rem : Bytes} {a : α}
    (h : p i = .ok (rem, a)) : ∃ pre, i = pre ++ rem :=
  let ⟨pre, e, _⟩ := hp _ _ _ h; ⟨pre, e⟩

theorem Local.length_le {p : Bytes → IRes E α} (hp : Local p) {i rem : Bytes} {a : α}
    (h : p i = .ok (rem, a)) : rem.length ≤ i.length := by
  obtain ⟨pre, rfl⟩ := hp.suffix h; simp

/-- A local parser is insensitive to appended data. -/
theorem Local.extend {p : Bytes → IRes E α} (hp : Local p) {i rem : Bytes} {a : α}
    (h : p i = .ok (rem, a)) (t : Bytes) : p (i ++ t) = .ok (rem ++ t, a) := by
  obtain ⟨pre, rfl, r⟩ := hp _ _ _ h
  rw [List.append_assoc]; exact r _

/-! ## Streaming take -/

theorem takeStreaming_append (pre x : Bytes) :
    (takeStreaming pre.length (pre ++ x) : IRes E Bytes) = .ok (x, pre) := by
  simp [takeStreaming]

theorem reads_takeStreaming (pre : Bytes) :
    Reads (takeStreaming pre.length : Bytes → IRes E Bytes) pre pre :=
  fun x => takeStreaming_append pre x

theorem takeStreaming_ok {n : Nat} {i rem a : Bytes}
    (h : (takeStreaming n i : IRes E Bytes) = .ok (rem, a)) : i = a ++ rem ∧ a.length = n := by
  unfold takeStreaming at h
  split at h
  · simp at h
  · simp at h
    obtain ⟨rfl, rfl⟩ := h
    simp; omega

theorem local_takeStreaming (n : Nat) : Local (takeStreaming n : Bytes → IRes E Bytes) := by
  intro i rem a h
  obtain ⟨rfl, rfl⟩ := takeStreaming_ok h
  exact ⟨a, rfl, reads_takeStreaming a⟩

theorem returns_takeStreaming (n : Nat) (i : Bytes) :
    (takeStreaming n i : IRes E Bytes).Returns := by
  unfold takeStreaming; split <;> simp

/-! ## Identifier octets -/

theorem tagLoop_ok {bs : Bytes} {count c t n : Nat} (h : tagLoop bs count c = .ok (t, n)) :
    ∃ pre rest, bs = pre ++ rest ∧ pre ≠ [] ∧ n = count + pre.length ∧
      ∀ x, tagLoop (pre ++ x) count c = .ok (t, n) := by
  induction bs generalizing count c with
  | nil => simp [tagLoop] at h
  | cons b rest ih =>
    unfold tagLoop at h
    split at h
    · simp at h
    · rename_i hc
      simp only at h
      split at h
      · rename_i hb
        simp at h
        refine ⟨[b], rest, rfl, by simp, by simp [h.2], ?_⟩
        intro x
        simp [tagLoop, hc, hb, h.1, h.2]
      · rename_i hb
        obtain ⟨pre, rest', rfl, h1, h2, h3⟩ := ih h
        refine ⟨b :: pre, rest', rfl, by simp, by simp [h2]; omega, ?_⟩
        intro x
        simp [tagLoop, hc, hb, h3]

theorem returns_tagLoop (bs : Bytes) (count c : Nat) : (tagLoop bs count c).Returns := by
  induction bs generalizing count c with
  | nil => simp [tagLoop]
  | cons b rest ih =>
    unfold tagLoop
    split
    · simp
    · simp only; split
      · simp
      · exact ih _ _

theorem local_parseIdentifier : Local parseIdentifier := by
  intro i rem a h
  cases i with
  | nil => simp [parseIdentifier] at h
  | cons b rest =>
    simp only [parseIdentifier] at h
    split at h
    · rename_i hb
      obtain ⟨⟨t, n⟩, h1, h2⟩ := bind_eq_ok.1 h
      obtain ⟨pre, rest', rfl, hp, rfl, h3⟩ := tagLoop_ok h1
      simp at h2
      obtain ⟨h2, h4⟩ := h2
      have e1 : List.drop (1 + pre.length) (b :: (pre ++ rest')) = rest' := by
        rw [Nat.add_comm]; simp
      rw [e1] at h2
      subst h2
      refine ⟨b :: pre, by simp, ?_⟩
      intro x
      have e2 : ∀ y : Bytes, List.drop (1 + pre.length) (b :: (pre ++ y)) = y := by
        intro y; rw [Nat.add_comm]; simp
      have e3 : ∀ y : Bytes, List.take (1 + pre.length) (b :: (pre ++ y)) = b :: pre := by
        intro y; rw [Nat.add_comm]; simp
      simp [parseIdentifier, hb, h3, e2, e3] at h4 ⊢
      exact h4
    · rename_i hb
      simp at h
      refine ⟨[b], by simp [h.1], ?_⟩
      intro x
      simp [parseIdentifier, hb, h.2]

theorem parseIdentifier_pos {i rem : Bytes} {a : Ident} (h : parseIdentifier i = .ok (rem, a)) :
    rem.length + 1 ≤ i.length := by
  cases i with
  | nil => simp [parseIdentifier] at h
  | cons b rest =>
    simp only [parseIdentifier] at h
    split at h
    · obtain ⟨⟨t, n⟩, h1, h2⟩ := bind_eq_ok.1 h
      obtain ⟨pre, rest', rfl, hp, rfl, h3⟩ := tagLoop_ok h1
      simp at h2
      rw [← h2.1]; simp
    · simp at h; simp [h.1]

theorem returns_parseIdentifier (i : Bytes) : (parseIdentifier i).Returns := by
  cases i with
  | nil => simp [parseIdentifier]
  | cons b rest =>
    simp only [parseIdentifier]
    split
    · exact returns_bind (returns_tagLoop _ _ _) (by intros; simp)
    · simp

/-! ## Length octets -/

theorem local_parseLength (k : Outcome (NomErr BerError) Length) : Local (parseLength k) := by
  intro i rem a h
  cases i with
  | nil => simp [parseLength] at h
  | cons b rest =>
    simp only [parseLength] at h
    split at h
    · rename_i hb
      simp at h
      exact ⟨[b], by simp [h.1], fun x => by simp [parseLength, hb, h.2]⟩
    split at h
    · rename_i hb hl
      obtain ⟨l, h1, h2⟩ := map_eq_ok.1 h
      simp at h2
      exact ⟨[b], by simp [h2.1], fun x => by simp [parseLength, hb, hl, h1, h2.2]⟩
    split at h
    · simp at h
    · rename_i hb hl hl'
      obtain ⟨⟨r, ds⟩, h1, h2⟩ := bind_eq_ok.1 h
      obtain ⟨rfl, hlen⟩ := takeStreaming_ok h1
      simp only at h2
      split at h2
      · simp at h2
      · rename_i n hn
        simp at h2
        refine ⟨b :: ds, by simp [h2.1], fun x => ?_⟩
        simp only [List.cons_append, parseLength, if_neg hb, if_neg hl, if_neg hl']
        rw [← hlen, takeStreaming_append]
        simp [hn, h2.2]

theorem parseLength_pos {k : Outcome (NomErr BerError) Length} {i rem : Bytes} {a : Length}
    (h : parseLength k i = .ok (rem, a)) : rem.length + 1 ≤ i.length := by
  obtain ⟨pre, rfl, r⟩ := local_parseLength k _ _ _ h
  cases pre with
  | nil => have := r []; simp [parseLength] at this
  | cons b pre => simp

theorem returns_parseLength {k : Outcome (NomErr BerError) Length} (hk : k.Returns) (i : Bytes) :
    (parseLength k i).Returns := by
  cases i with
  | nil => simp [parseLength]
  | cons b rest =>
    simp only [parseLength]
    split
    · simp
    split
    · simp [hk]
    split
    · simp
    · refine returns_bind (returns_takeStreaming _ _) ?_
      intro a _
      split <;> simp

/-! ## Headers -/

/-- Common shape of the two header parsers. -/
def headerWith (k : Ident → Outcome (NomErr BerError) Length) (i : Bytes) : IRes BerError Header :=
  parseIdentifier i >>? fun r =>
    parseLength (k r.2) r.1 >>? fun s =>
      .ok (s.1, Header.mk r.2.cls r.2.constructed r.2.tag s.2 (some r.2.raw))

theorem headerFromBer_eq : headerFromBer =
    headerWith (fun a => if a.constructed then .ok .indefinite
      else .err (.error .constructExpected)) := rfl

theorem headerFromDer_eq : headerFromDer =
    headerWith (fun _ => .err (.error (.derConstraintFailed .indefiniteLength))) := rfl

theorem local_headerWith (k : Ident → Outcome (NomErr BerError) Length) : Local (headerWith k) :=
  local_parseIdentifier.bind fun a => (local_parseLength (k a)).bind fun l =>
    Local.ok (Header.mk a.cls a.constructed a.tag l (some a.raw))

theorem local_headerFromBer : Local headerFromBer := headerFromBer_eq ▸ local_headerWith _

theorem local_headerFromDer : Local headerFromDer := headerFromDer_eq ▸ local_headerWith _

theorem headerFromBer_pos {i rem : Bytes} {h : Header} (e : headerFromBer i = .ok (rem, h)) :
    rem.length + 2 ≤ i.length := by
  unfold headerFromBer at e
  obtain ⟨r, h1, h2⟩ := bind_eq_ok.1 e
  obtain ⟨s, h3, h4⟩ := bind_eq_ok.1 h2
  have := parseIdentifier_pos (rem := r.1) (a := r.2) h1
  have := parseLength_pos (rem := s.1) (a := s.2) h3
  simp at h4
  rw [← h4.1]; omega

theorem headerFromDer_pos {i rem : Bytes} {h : Header} (e : headerFromDer i = .ok (rem, h)) :
    rem.length + 2 ≤ i.length := by
  unfold headerFromDer at e
  obtain ⟨r, h1, h2⟩ := bind_eq_ok.1 e
  obtain ⟨s, h3, h4⟩ := bind_eq_ok.1 h2
  have := parseIdentifier_pos (rem := r.1) (a := r.2) h1
  have := parseLength_pos (rem := s.1) (a := s.2) h3
  simp at h4
  rw [← h4.1]; omega

theorem returns_headerFromBer (i : Bytes) : (headerFromBer i).Returns := by
  unfold headerFromBer
  refine returns_bind (returns_parseIdentifier i) fun r _ => ?_
  refine returns_bind (returns_parseLength ?_ _) fun s _ => ?_
  · split <;> simp
  · simp

theorem returns_headerFromDer (i : Bytes) : (headerFromDer i).Returns := by
  unfold headerFromDer
  refine returns_bind (returns_parseIdentifier i) fun r _ => ?_
  refine returns_bind (returns_parseLength ?_ _) fun s _ => ?_
  · simp
  · simp

end Verif
