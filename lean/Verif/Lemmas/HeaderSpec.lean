import Verif.Spec
import Verif.Lemmas.Trunc
/-!
# The header parsers decode exactly the X.690 grammar
-/
namespace Verif
open Outcome Spec

theorem classOfBits_eq (b : UInt8) : classOfBits (b.toNat / 64) = classOf b := by
  have h : b.toNat < 256 := b.toNat_lt
  unfold classOf
  have : b.toNat / 64 = 0 ∨ b.toNat / 64 = 1 ∨ b.toNat / 64 = 2 ∨ b.toNat / 64 = 3 := by omega
  rcases this with h0 | h0 | h0 | h0 <;> rw [h0] <;> simp only [classOfBits]
  · rw [if_pos (by omega)]
  · rw [if_neg (by omega), if_pos (by omega)]
  · rw [if_neg (by omega), if_neg (by omega), if_pos (by omega)]
  · rw [if_neg (by omega), if_neg (by omega), if_neg (by omega)]

theorem constructed_eq (b : UInt8) : decide (b.toNat / 32 % 2 = 1) = constructedBit b := by
  simp [constructedBit, Nat.testBit_eq_decide_div_mod_eq]

theorem tagLoop_value (ms : Bytes) (last : UInt8) (rest : Bytes) (count c : Nat)
    (hm : ∀ m ∈ ms, 128 ≤ m.toNat) (hl : last.toNat < 128) (hc : count + ms.length ≤ 5) :
    tagLoop (ms ++ last :: rest) count c =
      .ok ((c * 128 ^ (ms.length + 1) + base128 (ms ++ [last])) % 2 ^ 32,
        count + ms.length + 1) := by
  induction ms generalizing count c with
  | nil =>
    simp only [List.nil_append, tagLoop]
    simp only [List.length_nil] at hc
    rw [if_neg (by omega), if_pos hl]
    have h1 : (c * 128 % 4294967296 + last.toNat % 128)
        = (c * 128 ^ 1 + base128 [last]) % 2 ^ 32 := by
      simp only [base128, List.length_nil]; omega
    simp [h1]
  | cons b ms ih =>
    simp only [List.length_cons] at hc
    have hb := hm b (by simp)
    simp only [List.cons_append, tagLoop]
    rw [if_neg (by omega), if_neg (by omega)]
    rw [ih _ _ (fun m h => hm m (by simp [h])) (by omega)]
    congr 2
    · simp only [base128, List.length_cons, List.length_append, List.length_nil]
      have e : (c * 128 % 4294967296 + b.toNat % 128) % 2 ^ 32
          = (c * 128 + b.toNat % 128) % 2 ^ 32 := by omega
      rw [Nat.add_mod, Nat.mul_mod, e, ← Nat.mul_mod, ← Nat.add_mod]
      congr 1
      rw [Nat.add_mul, Nat.pow_succ 128 (ms.length + 1), Nat.mul_assoc, Nat.mul_comm 128 _]
      simp only [Nat.zero_add]
      omega
    · simp only [List.length_cons]; omega

theorem bytesToU64_eq (u : Nat) (bs : Bytes) :
    bytesToU64 u bs = if u * 256 ^ bs.length + base256 bs < 2 ^ 64 ∨ bs = [] then
      some (u * 256 ^ bs.length + base256 bs) else none := by
  induction bs generalizing u with
  | nil => simp [bytesToU64, base256]
  | cons b bs ih =>
    have hb : b.toNat < 256 := b.toNat_lt
    have e : (u * 256 + b.toNat) * 256 ^ bs.length + base256 bs =
        u * 256 ^ (bs.length + 1) + (b.toNat * 256 ^ bs.length + base256 bs) := by
      rw [Nat.pow_succ, Nat.add_mul, Nat.mul_assoc, Nat.mul_comm 256]; omega
    have hp : 1 ≤ 256 ^ bs.length := Nat.one_le_pow _ _ (by omega)
    have hv : u * 256 ^ (b :: bs).length + base256 (b :: bs) =
        (u * 256 + b.toNat) * 256 ^ bs.length + base256 bs := by
      rw [e]; rfl
    rw [show bytesToU64 u (b :: bs) = if 72057594037927936 ≤ u then none
      else bytesToU64 (u * 256 + b.toNat) bs from rfl]
    split
    · rename_i hu
      have : 2 ^ 64 ≤ u * 256 ^ (bs.length + 1) := by
        rw [Nat.pow_succ]
        calc 2 ^ 64 = 72057594037927936 * (1 * 256) := by decide
          _ ≤ u * (256 ^ bs.length * 256) := Nat.mul_le_mul hu (Nat.mul_le_mul hp (Nat.le_refl _))
      rw [if_neg]
      rw [hv, e]
      simp; omega
    · rename_i hu
      rw [ih, hv]
      by_cases hn : bs = []
      · subst hn
        simp [base256]
        omega
      · simp [hn]

theorem parseIdentifier_iff {i rem : Bytes} {a : Ident} :
    parseIdentifier i = .ok (rem, a) ↔ ∃ num, i = a.raw ++ rem ∧
      IdentOctets a.raw a.cls a.constructed num ∧ a.tag = num % 2 ^ 32 ∧ a.raw.length ≤ 6 := by
  constructor
  · intro h
    cases i with
    | nil => simp [parseIdentifier] at h
    | cons b rest =>
      have hb : b.toNat < 256 := b.toNat_lt
      simp only [parseIdentifier, classOfBits_eq, constructed_eq] at h
      split at h
      · rename_i h31
        obtain ⟨⟨t, n⟩, h1, h2⟩ := bind_eq_ok.1 h
        obtain ⟨ms, last, rest', rfl, rfl, h4, h5, h6⟩ := tagLoop_ok_shape h1
        rw [tagLoop_value ms last rest' 1 0 h4 h5 (by omega)] at h1
        simp only [ok.injEq, Prod.mk.injEq] at h1 h2
        obtain ⟨h2, rfl⟩ := h2
        have e1 : List.drop (1 + ms.length + 1) (b :: (ms ++ last :: rest')) = rest' := by
          have : 1 + ms.length + 1 = (ms.length + 1) + 1 := by omega
          rw [this, List.drop_succ_cons, ← List.drop_drop]; simp
        have e2 : List.take (1 + ms.length + 1) (b :: (ms ++ last :: rest')) = b :: ms ++ [last] := by
          have : 1 + ms.length + 1 = (ms.length + 1) + 1 := by omega
          rw [this, List.take_succ_cons, List.take_add]; simp
        rw [e1] at h2
        rw [e2]
        refine ⟨base128 (ms ++ [last]), by simp [h2], IdentOctets.high b ms last h31 h4 h5, ?_, ?_⟩
        · simp only; rw [← h1.1]; simp
        · simp; omega
      · rename_i h31
        simp at h
        obtain ⟨rfl, rfl⟩ := h
        refine ⟨b.toNat % 32, rfl, IdentOctets.low b h31, by simp only; omega, by simp⟩
  · rintro ⟨num, rfl, h, ht, hl⟩
    obtain ⟨cls, cons, tag, raw⟩ := a
    simp only at h ht hl ⊢
    cases h with
    | low b h31 =>
      have hb : b.toNat < 256 := b.toNat_lt
      simp only [List.cons_append, List.nil_append, parseIdentifier, if_neg h31, classOfBits_eq,
        constructed_eq]
      rw [ht]
      have : b.toNat % 32 % 2 ^ 32 = b.toNat % 32 := by omega
      rw [this]
    | high b ms last h31 hm hlast =>
      simp at hl
      simp only [List.cons_append, List.append_assoc, List.nil_append, parseIdentifier, if_pos h31,
        classOfBits_eq, constructed_eq]
      rw [tagLoop_value ms last rem 1 0 hm hlast (by omega)]
      have e1 : List.drop (1 + ms.length + 1) (b :: (ms ++ last :: rem)) = rem := by
        have : 1 + ms.length + 1 = (ms.length + 1) + 1 := by omega
        rw [this, List.drop_succ_cons, ← List.drop_drop]; simp
      have e2 : List.take (1 + ms.length + 1) (b :: (ms ++ last :: rem)) = b :: ms ++ [last] := by
        have : 1 + ms.length + 1 = (ms.length + 1) + 1 := by omega
        rw [this, List.take_succ_cons, List.take_add]; simp
      simp [e1, e2, ht]

theorem parseLength_iff {k : Outcome (NomErr BerError) Length} {i rem : Bytes} {l : Length}
    (hk : k = .ok .indefinite ∨ ∃ e, k = .err e) :
    parseLength k i = .ok (rem, l) ↔ ∃ lb, i = lb ++ rem ∧ LenOctets lb l ∧
      (∀ n, l = .definite n → n < 2 ^ 64) ∧ (l = .indefinite → k = .ok .indefinite) := by
  constructor
  · intro h
    cases i with
    | nil => simp [parseLength] at h
    | cons b rest =>
      have hb : b.toNat < 256 := b.toNat_lt
      simp only [parseLength] at h
      split at h
      · rename_i h128
        simp at h
        obtain ⟨rfl, rfl⟩ := h
        have : b.toNat % 128 = b.toNat := by omega
        rw [this]
        refine ⟨[b], rfl, LenOctets.short b h128, ?_, by simp⟩
        intro n hn; simp at hn; omega
      · rename_i h128
        split at h
        · rename_i h0
          obtain ⟨l', h1, h2⟩ := map_eq_ok.1 h
          simp at h2
          obtain ⟨rfl, rfl⟩ := h2
          have hb' : b = 0x80 := by
            apply UInt8.toNat_inj.1
            show b.toNat = 128
            omega
          rcases hk with hk | ⟨e, hk⟩
          · rw [hk] at h1
            simp at h1
            subst h1
            refine ⟨[b], rfl, hb' ▸ LenOctets.indefinite, by simp, fun _ => hk⟩
          · rw [hk] at h1; simp at h1
        split at h
        · simp at h
        · rename_i h0 h127
          obtain ⟨⟨r, ds⟩, h1, h2⟩ := bind_eq_ok.1 h
          obtain ⟨rfl, hlen⟩ := takeStreaming_ok h1
          simp only [bytesToU64_eq] at h2
          have hne : ds ≠ [] := by
            intro hn; rw [hn] at hlen; simp at hlen; omega
          split at h2
          · simp at h2
          · rename_i n hn
            simp at h2
            obtain ⟨rfl, rfl⟩ := h2
            simp [hne] at hn
            obtain ⟨hlt, rfl⟩ := hn
            refine ⟨b :: ds, rfl, LenOctets.long b ds (by omega) (by omega) (by omega), ?_, by simp⟩
            intro n hn; simp at hn; omega
  · rintro ⟨lb, rfl, h, hlt, hi⟩
    cases h with
    | short b hb =>
      have : b.toNat % 128 = b.toNat := by omega
      simp [parseLength, hb, this]
    | long b ds h1 h2 h3 =>
      have hlt := hlt _ rfl
      have e : b.toNat % 128 = ds.length := by omega
      have hne : ds ≠ [] := by
        intro hn; rw [hn] at h3; simp at h3; omega
      simp only [List.cons_append, parseLength]
      rw [if_neg (by omega), if_neg (by omega), if_neg (by omega), e, takeStreaming_append]
      have : bytesToU64 0 ds = some (base256 ds) := by
        rw [bytesToU64_eq, if_pos (by left; omega)]; simp
      simp [this]
    | indefinite =>
      rw [hi rfl]
      simp [parseLength]

theorem headerFromBer_iff {i rem : Bytes} {h : Header} :
    headerFromBer i = .ok (rem, h) ↔ ∃ hb, i = hb ++ rem ∧ BerHeader hb h := by
  constructor
  · intro e
    unfold headerFromBer at e
    obtain ⟨⟨i1, a⟩, h1, h2⟩ := bind_eq_ok.1 e
    obtain ⟨⟨i2, l⟩, h3, h4⟩ := bind_eq_ok.1 h2
    simp at h4
    obtain ⟨rfl, rfl⟩ := h4
    obtain ⟨num, rfl, g1, g2, g3⟩ := parseIdentifier_iff.1 h1
    obtain ⟨lb, rfl, k1, k2, k3⟩ := (parseLength_iff (by simp only; split <;> simp)).1 h3
    refine ⟨a.raw ++ lb, by simp, ⟨⟨a.raw, lb, num, rfl, g1, k1, g2, g3, rfl⟩, k2, ?_⟩⟩
    intro hl
    have := k3 hl
    simp only at this
    split at this
    · assumption
    · simp at this
  · rintro ⟨hb, rfl, ⟨⟨id, lb, num, rfl, g1, g2, g3, g4, g5⟩, h2, h3⟩⟩
    obtain ⟨cls, cons, tag, length, raw⟩ := h
    simp only at g1 g2 g3 g4 g5 h2 h3
    subst g5
    unfold headerFromBer
    rw [List.append_assoc, (parseIdentifier_iff (a := ⟨cls, cons, tag, id⟩)).2
      ⟨num, rfl, g1, g3, g4⟩]
    simp only [ok_bind]
    rw [(parseLength_iff (by split <;> simp)).2 ⟨lb, rfl, g2, h2, fun h => by simp [h3 h]⟩]
    rfl

theorem headerFromDer_iff {i rem : Bytes} {h : Header} :
    headerFromDer i = .ok (rem, h) ↔ ∃ hb, i = hb ++ rem ∧ DerHeader hb h := by
  constructor
  · intro e
    unfold headerFromDer at e
    obtain ⟨⟨i1, a⟩, h1, h2⟩ := bind_eq_ok.1 e
    obtain ⟨⟨i2, l⟩, h3, h4⟩ := bind_eq_ok.1 h2
    simp at h4
    obtain ⟨rfl, rfl⟩ := h4
    obtain ⟨num, rfl, g1, g2, g3⟩ := parseIdentifier_iff.1 h1
    obtain ⟨lb, rfl, k1, k2, k3⟩ := (parseLength_iff (by simp)).1 h3
    have hd : l ≠ .indefinite := fun hl => by have := k3 hl; simp at this
    refine ⟨a.raw ++ lb, by simp, ⟨⟨⟨a.raw, lb, num, rfl, g1, k1, g2, g3, rfl⟩, k2, ?_⟩, hd⟩⟩
    intro hl
    exact absurd hl hd
  · rintro ⟨hb, rfl, ⟨⟨⟨id, lb, num, rfl, g1, g2, g3, g4, g5⟩, h2, h3⟩, hd⟩⟩
    obtain ⟨cls, cons, tag, length, raw⟩ := h
    simp only at g1 g2 g3 g4 g5 h2 h3 hd
    subst g5
    unfold headerFromDer
    rw [List.append_assoc, (parseIdentifier_iff (a := ⟨cls, cons, tag, id⟩)).2
      ⟨num, rfl, g1, g3, g4⟩]
    simp only [ok_bind]
    rw [(parseLength_iff (by simp)).2 ⟨lb, rfl, g2, h2, fun h => absurd h hd⟩]
    rfl

/-! ## Concrete headers -/

/-- Octets that the header reader reads completely are a header of BER. -/
theorem berHeader_read {hb : Bytes} {h : Header} (e : headerFromBer hb = .ok ([], h)) : BerHeader hb h := by
  obtain ⟨x, h1, h2⟩ := headerFromBer_iff.1 e
  simpa [h1] using h2

/-- The same for DER. -/
theorem derHeader_read {hb : Bytes} {h : Header} (e : headerFromDer hb = .ok ([], h)) : DerHeader hb h := by
  obtain ⟨x, h1, h2⟩ := headerFromDer_iff.1 e
  simpa [h1] using h2

end Verif
