import Verif.OidMacro
import Verif.Spec
/-!
# Lemmas about the OID macro
-/
namespace Verif
open Outcome Spec

namespace Spec

/-- X.690 8.19.2: a subidentifier is a series of octets, bit 8 set in all but the last, whose low
seven bits are the digits of the number in base 128; the first octet is not `80`. -/
def SubId (n : Nat) (bs : Bytes) : Prop :=
  ∃ ms last, bs = ms ++ [last] ∧ (∀ m ∈ ms, 128 ≤ m.toNat) ∧ last.toNat < 128 ∧
    base128 bs = n ∧ bs.head? ≠ some 0x80

/-- A series of subidentifiers. -/
inductive SubIds : List Nat → Bytes → Prop
  | nil : SubIds [] []
  | cons (n : Nat) (ns : List Nat) (b bs : Bytes) : SubId n b → SubIds ns bs → SubIds (n :: ns) (b ++ bs)

end Spec

theorem base128_append (a b : Bytes) : base128 (a ++ b) = base128 a * 128 ^ b.length + base128 b := by
  induction a with
  | nil => simp [base128]
  | cons x a ih =>
    simp only [List.cons_append, base128, List.length_append, ih, Nat.add_mul, Nat.pow_add,
      Nat.mul_assoc, Nat.add_assoc]

theorem base128_lt (a : Bytes) : base128 a < 128 ^ a.length := by
  induction a with
  | nil => simp [base128]
  | cons x a ih =>
    simp only [base128, List.length_cons, Nat.pow_succ]
    have h : x.toNat % 128 ≤ 127 := by omega
    have := Nat.mul_le_mul_right (128 ^ a.length) h
    omega

namespace OidMacro

theorem or_128 (y : UInt8) : (y ||| 0x80).toNat = 128 + y.toNat % 128 := by
  have h : ∀ y : Fin 256, (UInt8.ofNat y.val ||| 0x80).toNat = 128 + y.val % 128 := by decide +kernel
  have := h ⟨y.toNat, y.toNat_lt⟩
  simpa using this

theorem xor_128 (y : UInt8) (h : 128 ≤ y.toNat) : (y ^^^ 0x80).toNat = y.toNat - 128 := by
  have H : ∀ y : Fin 256, 128 ≤ y.val → (UInt8.ofNat y.val ^^^ 0x80).toNat = y.val - 128 := by
    decide +kernel
  have := H ⟨y.toNat, y.toNat_lt⟩ h
  simpa using this

/-- The stored octet: low seven bits of the pending bits and the shifted byte. -/
theorem stored_octet (b e : UInt8) (n : Nat) (hn : n ≤ 6) (he : e.toNat < 2 ^ n) :
    ((b <<< UInt8.ofNat n) ||| e ||| 0x80).toNat = 128 + (e.toNat + b.toNat * 2 ^ n) % 128 := by
  rw [or_128, UInt8.toNat_or, UInt8.toNat_shiftLeft]
  have h1 : (UInt8.ofNat n).toNat % 8 = n := by rw [UInt8.toNat_ofNat']; omega
  rw [h1, Nat.shiftLeft_eq]
  have h2 : b.toNat * 2 ^ n % 2 ^ 8 = (b.toNat % 2 ^ (8 - n)) <<< n := by
    rw [Nat.shiftLeft_eq, ← Nat.mul_mod_mul_right, ← Nat.pow_add]
    congr 2; omega
  rw [h2, ← Nat.shiftLeft_add_eq_or_of_lt he, ← h2]
  have h3 : (2 : Nat) ^ 8 = 256 := rfl
  rw [h3]; omega

/-- The bits carried over. -/
theorem carried (b e : UInt8) (n : Nat) (hn : n ≤ 6) (he : e.toNat < 2 ^ n) :
    (b >>> UInt8.ofNat (8 - (n + 1))).toNat = (e.toNat + b.toNat * 2 ^ n) / 128 := by
  rw [UInt8.toNat_shiftRight]
  have h1 : (UInt8.ofNat (8 - (n + 1))).toNat % 8 = 7 - n := by rw [UInt8.toNat_ofNat']; omega
  rw [h1, Nat.shiftRight_eq_div_pow]
  have h2 : (128 : Nat) = 2 ^ n * 2 ^ (7 - n) := by
    rw [← Nat.pow_add, show n + (7 - n) = 7 by omega]
  have h3 : (e.toNat + b.toNat * 2 ^ n) / 2 ^ n = b.toNat := by
    rw [Nat.add_mul_div_right _ _ (Nat.two_pow_pos n), Nat.div_eq_of_lt he, Nat.zero_add]
  rw [h2, ← Nat.div_div_eq_div_mul, h3]

/-- Storing at the last free place. -/
theorem store_at (pre ds : Bytes) (r : Nat) (b : UInt8) :
    store (pre ++ List.replicate (r + 1) 0 ++ ds) (pre.length + (r + 1) - 1) b =
      .ok (pre ++ List.replicate r 0 ++ (b :: ds)) := by
  have h : pre.length + (r + 1) - 1 < (pre ++ List.replicate (r + 1) 0 ++ ds).length := by
    simp only [List.length_append, List.length_replicate]; omega
  rw [store, if_pos h, List.replicate_succ', ← List.append_assoc, List.append_assoc _ [0]]
  congr 1
  have h2 : pre.length + (r + 1) - 1 = (pre ++ List.replicate r (0 : UInt8)).length := by
    simp only [List.length_append, List.length_replicate]; omega
  rw [h2, List.set_append_right _ _ (Nat.le_refl _), Nat.sub_self]
  rfl

/-- Invariant of the byte loop: `k` bytes with value `W` have been consumed; `pre` precedes the `m`
octets of the component. -/
def Inv (pre : Bytes) (m k W : Nat) (st : LoopSt) : Prop :=
  ∃ ds : Bytes, ds.length = st.stored ∧ st.stored ≤ m ∧
    st.enc = pre ++ List.replicate (m - st.stored) 0 ++ ds ∧ (∀ d ∈ ds, 128 ≤ d.toNat) ∧
    st.pos = pre.length + (m - st.stored) - 1 ∧ st.extraSize ≤ 7 ∧
    8 * k = 7 * st.stored + st.extraSize ∧
    base128 ds + st.extra.toNat * 128 ^ st.stored = W ∧ st.extra.toNat < 2 ^ st.extraSize

/-- Result of the byte loop for a number `V` that needs `m` octets. -/
def Fin' (pre : Bytes) (m V : Nat) (st : LoopSt) : Prop :=
  ∃ ds : Bytes, ds.length = st.stored ∧
    st.enc = pre ++ List.replicate (m - st.stored) 0 ++ ds ∧ (∀ d ∈ ds, 128 ≤ d.toNat) ∧
    ((st.stored = m ∧ base128 ds = V) ∨
     (st.stored + 1 = m ∧ base128 ds + st.extra.toNat * 128 ^ st.stored = V ∧ st.extra.toNat < 128))

theorem pow128 (n : Nat) : 128 ^ n = 2 ^ (7 * n) := by
  rw [Nat.pow_mul]

theorem pow256 (n : Nat) : 256 ^ n = 2 ^ (8 * n) := by
  rw [Nat.pow_mul]

theorem lt_of_pow {a b : Nat} (h : 2 ^ a < 2 ^ b) : a < b :=
  (Nat.pow_lt_pow_iff_right (by decide)).1 h

theorem flush_inv {pre : Bytes} {m k W : Nat} {st : LoopSt} (h : Inv pre m k W st)
    (hk : 8 * k < 7 * m) :
    ∃ st', flush st = .ok st' ∧ Inv pre m k W st' ∧ st'.extraSize ≤ 6 ∧ st'.stored < m := by
  obtain ⟨ds, h1, h2, h3, h4, h5, h6, h7, h8, h9⟩ := h
  by_cases he : st.extraSize = 7
  · have hm : st.stored + 1 < m := by omega
    obtain ⟨r, hr⟩ : ∃ r, m - st.stored = r + 1 := ⟨m - st.stored - 1, by omega⟩
    have hr' : m - (st.stored + 1) = r := by omega
    refine ⟨{ enc := pre ++ List.replicate r 0 ++ ((st.extra ||| 0x80) :: ds), pos := st.pos - 1,
              extra := 0, extraSize := 0, stored := st.stored + 1 }, ?_, ?_, by simp, hm⟩
    · rw [flush, if_pos he, h3, h5, hr, store_at]
      simp only [ok_bind]
      rw [if_neg (by omega)]
    · refine ⟨(st.extra ||| 0x80) :: ds, by simp [h1], Nat.le_of_lt hm, ?_, ?_, ?_, by simp,
        by simp only; omega, ?_, by simp⟩
      · simp only [hr']
      · intro d hd
        rcases List.mem_cons.1 hd with rfl | hd
        · rw [or_128]; omega
        · exact h4 d hd
      · simp only [h5]; omega
      · have h128 : st.extra.toNat < 128 := by
          rw [he] at h9; exact h9
        simp only [base128, or_128, h1]
        rw [show (128 + st.extra.toNat % 128) % 128 = st.extra.toNat by omega]
        simp only [UInt8.toNat_zero, Nat.zero_mul, Nat.add_zero]
        omega
  · refine ⟨st, by rw [flush, if_neg he], ⟨ds, h1, h2, h3, h4, h5, h6, h7, h8, h9⟩, by omega, by omega⟩

theorem putByte_inv {pre : Bytes} {m k W : Nat} {st : LoopSt} {b : UInt8} (h : Inv pre m k W st)
    (he : st.extraSize ≤ 6) (hm : st.stored < m) :
    ∃ st', putByte st b = .ok st' ∧ (0 < st.pos → Inv pre m (k + 1) (W + b.toNat * 256 ^ k) st') ∧
      (st.pos = 0 → st.stored + 1 = m ∧ (W + b.toNat * 256 ^ k < 128 ^ m →
        Fin' pre m (W + b.toNat * 256 ^ k) st')) := by
  obtain ⟨ds, h1, h2, h3, h4, h5, h6, h7, h8, h9⟩ := h
  obtain ⟨r, hr⟩ : ∃ r, m - st.stored = r + 1 := ⟨m - st.stored - 1, by omega⟩
  have hr' : m - (st.stored + 1) = r := by omega
  have hoct := stored_octet b st.extra st.extraSize he h9
  have hcar := carried b st.extra st.extraSize he h9
  -- the value of the new digits and carry
  have hval : ∀ x : Nat, x = st.extra.toNat + b.toNat * 2 ^ st.extraSize →
      base128 ds + x * 128 ^ st.stored = W + b.toNat * 256 ^ k := by
    intro x hx
    have : 2 ^ st.extraSize * 128 ^ st.stored = 256 ^ k := by
      rw [pow128, pow256, ← Nat.pow_add]; congr 1; omega
    rw [hx, Nat.add_mul, Nat.mul_assoc, this, ← h8]; omega
  have hdig : ∀ d : UInt8, d.toNat = 128 + (st.extra.toNat + b.toNat * 2 ^ st.extraSize) % 128 →
      base128 (d :: ds) = base128 ds +
        (st.extra.toNat + b.toNat * 2 ^ st.extraSize) % 128 * 128 ^ st.stored := by
    intro d hd
    simp only [base128, h1, hd]
    rw [show ∀ y, (128 + y % 128) % 128 = y % 128 by omega]; omega
  have hmem : ∀ d ∈ ((b <<< UInt8.ofNat st.extraSize) ||| st.extra ||| 0x80) :: ds, 128 ≤ d.toNat := by
    intro d hd
    rcases List.mem_cons.1 hd with rfl | hd
    · rw [hoct]; omega
    · exact h4 d hd
  have hsplit : ∀ x : Nat, x % 128 * 128 ^ st.stored + x / 128 * 128 ^ (st.stored + 1) =
      x * 128 ^ st.stored := by
    intro x
    rw [Nat.pow_succ, Nat.mul_comm (128 ^ st.stored) 128, ← Nat.mul_assoc, ← Nat.add_mul]
    congr 1; omega
  by_cases hp : 0 < st.pos
  · refine ⟨{ enc := pre ++ List.replicate r 0 ++
                (((b <<< UInt8.ofNat st.extraSize) ||| st.extra ||| 0x80) :: ds),
              pos := st.pos - 1, extraSize := st.extraSize + 1,
              extra := b >>> UInt8.ofNat (8 - (st.extraSize + 1)), stored := st.stored + 1 },
            ?_, fun _ => ?_, fun h => by omega⟩
    · rw [putByte, h3]
      rw [show st.pos = pre.length + (r + 1) - 1 by omega, hr, store_at]
      simp only [ok_bind]
      rw [if_pos (by omega)]
    · refine ⟨_ :: ds, by simp [h1], by simp only; omega, by simp only [hr'], hmem,
        by simp only; omega, by simp only; omega, by simp only; omega, ?_, ?_⟩
      · rw [hdig _ hoct, hcar]
        simp only
        rw [Nat.add_assoc, hsplit]
        exact hval _ rfl
      · simp only [hcar]
        apply Nat.div_lt_of_lt_mul
        have hb := b.toNat_lt
        have hb' : b.toNat + 1 ≤ 256 := hb
        have h10 := Nat.mul_le_mul_right (2 ^ st.extraSize) hb'
        rw [Nat.add_mul] at h10
        rw [Nat.pow_succ]
        omega
  · have hr0 : r = 0 := by omega
    subst hr0
    refine ⟨{ enc := pre ++ List.replicate 0 0 ++
                (((b <<< UInt8.ofNat st.extraSize) ||| st.extra ||| 0x80) :: ds),
              pos := st.pos, extra := st.extra, extraSize := st.extraSize,
              stored := st.stored + 1 }, ?_, fun h => absurd h hp, fun _ => ⟨by omega, fun hV => ?_⟩⟩
    · rw [putByte, h3]
      rw [show st.pos = pre.length + (0 + 1) - 1 by omega, hr, store_at]
      simp only [ok_bind]
      rw [if_neg (by omega)]
    · refine ⟨_ :: ds, by simp [h1], by simp only [hr'], hmem, .inl ⟨by simp only; omega, ?_⟩⟩
      rw [hdig _ hoct]
      rw [← hval _ rfl] at hV ⊢
      have hlt : st.extra.toNat + b.toNat * 2 ^ st.extraSize < 128 := by
        have : (st.extra.toNat + b.toNat * 2 ^ st.extraSize) * 128 ^ st.stored < 128 ^ m := by omega
        rw [show m = st.stored + 1 by omega, Nat.pow_succ, Nat.mul_comm (128 ^ st.stored)] at this
        exact Nat.lt_of_mul_lt_mul_right this
      rw [Nat.mod_eq_of_lt hlt]

theorem byteLoop_fin {pre : Bytes} {m V : Nat} (hV : V < 128 ^ m) (hV' : 128 ^ (m - 1) ≤ V)
    (n : Nat) : ∀ (k W : Nat) (st : LoopSt), Inv pre m k W st → V = W + 256 ^ k * n →
      ∃ st', byteLoop st (bytesLE n) = .ok st' ∧ Fin' pre m V st' := by
  induction n using Nat.strongRecOn with
  | _ n ih =>
    intro k W st hI hW
    by_cases hn : n = 0
    · subst hn
      rw [bytesLE, dif_pos rfl]
      refine ⟨st, rfl, ?_⟩
      obtain ⟨ds, h1, h2, h3, h4, h5, h6, h7, h8, h9⟩ := hI
      simp only [Nat.mul_zero, Nat.add_zero] at hW
      subst hW
      refine ⟨ds, h1, h3, h4, ?_⟩
      by_cases hs : st.stored = m
      · refine .inl ⟨hs, ?_⟩
        have h0 : st.extra.toNat = 0 := by
          rcases Nat.eq_zero_or_pos st.extra.toNat with h | h
          · exact h
          · have := Nat.mul_le_mul_right (128 ^ st.stored) h
            rw [hs] at this h8; omega
        rw [h0] at h8; omega
      · refine .inr ⟨?_, h8, ?_⟩
        · have h10 := base128_lt ds
          rw [h1] at h10
          have h11 : V < 2 ^ (7 * st.stored + st.extraSize) := by
            have := Nat.mul_le_mul_right (128 ^ st.stored) (Nat.succ_le_of_lt h9)
            rw [Nat.succ_mul] at this
            rw [Nat.add_comm (7 * st.stored), Nat.pow_add, ← pow128]
            omega
          have h12 := Nat.lt_of_le_of_lt hV' h11
          rw [pow128] at h12
          have := lt_of_pow h12
          omega
        · exact Nat.lt_of_lt_of_le h9 (Nat.pow_le_pow_right (by decide) h6)
    · rw [bytesLE, dif_neg hn]
      have hk : 8 * k < 7 * m := by
        apply lt_of_pow
        rw [← pow128, ← pow256]
        have := Nat.mul_le_mul_left (256 ^ k) (Nat.pos_of_ne_zero hn)
        simp only [Nat.mul_succ, Nat.mul_zero] at this
        omega
      obtain ⟨s1, h1, hI1, he, hm⟩ := flush_inv hI hk
      obtain ⟨s2, h2, hp, hz⟩ := putByte_inv (b := UInt8.ofNat (n % 256)) hI1 he hm
      have hb : (UInt8.ofNat (n % 256)).toNat = n % 256 := by rw [UInt8.toNat_ofNat']; omega
      rw [hb] at hp hz
      have hW' : V = W + n % 256 * 256 ^ k + 256 ^ (k + 1) * (n / 256) := by
        have h3 := Nat.div_add_mod n 256
        have h4 : 256 ^ k * n = 256 ^ k * (256 * (n / 256)) + 256 ^ k * (n % 256) := by
          rw [← Nat.mul_add, h3]
        rw [hW, Nat.pow_succ, Nat.mul_assoc, Nat.mul_comm (n % 256), h4]
        omega
      rw [byteLoop, h1]
      simp only [ok_bind]
      rw [h2]
      simp only [ok_bind]
      by_cases hpos : 0 < s1.pos
      · exact ih (n / 256) (by omega) (k + 1) _ s2 (hp hpos) hW'
      · obtain ⟨hm1, hf⟩ := hz (by omega)
        have hn0 : n / 256 = 0 := by
          rcases Nat.eq_zero_or_pos (n / 256) with h | h
          · exact h
          · exfalso
            have h3 := Nat.mul_le_mul_left (256 ^ (k + 1)) h
            have h4 : 256 ^ (k + 1) < 128 ^ m := by omega
            rw [pow128, pow256] at h4
            have h5 := lt_of_pow h4
            obtain ⟨_, _, _, _, _, _, _, h7, _⟩ := hI1
            omega
        rw [hn0, Nat.mul_zero, Nat.add_zero] at hW'
        rw [hn0, bytesLE, dif_pos rfl]
        refine ⟨s2, rfl, ?_⟩
        rw [hW'] at hV ⊢
        exact hf hV

/-- Number of significant bits, as computed from the bytes. -/
def totalBits (n : Nat) : Nat :=
  bitLen ((bytesLE n).getLast?.getD 0) + ((bytesLE n).length - 1) * 8

theorem bytesLE_pos {n : Nat} (hn : n ≠ 0) :
    bytesLE n = UInt8.ofNat (n % 256) :: bytesLE (n / 256) := by
  rw [bytesLE, dif_neg hn]

theorem totalBits_small {n : Nat} (hn : n ≠ 0) (h : n < 256) : totalBits n = Nat.log2 n + 1 := by
  have h0 : n / 256 = 0 := by omega
  have h1 : bytesLE n = [UInt8.ofNat n] := by
    rw [bytesLE_pos hn, h0, bytesLE, dif_pos rfl, Nat.mod_eq_of_lt h]
  have h2 : (UInt8.ofNat n).toNat = n := by rw [UInt8.toNat_ofNat']; omega
  have h3 : UInt8.ofNat n ≠ 0 := fun h => hn (by rw [← h2, h]; rfl)
  simp [totalBits, h1, bitLen, h3, h2]

theorem totalBits_step {n : Nat} (h : 256 ≤ n) : totalBits n = totalBits (n / 256) + 8 := by
  have h0 : n / 256 ≠ 0 := by omega
  rw [totalBits, totalBits, bytesLE_pos (show n ≠ 0 by omega), bytesLE_pos h0]
  simp only [List.getLast?_cons_cons, List.length_cons]
  omega

theorem totalBits_bounds {n : Nat} (hn : n ≠ 0) :
    0 < totalBits n ∧ 2 ^ (totalBits n - 1) ≤ n ∧ n < 2 ^ totalBits n := by
  induction n using Nat.strongRecOn with
  | _ n ih =>
    by_cases h : n < 256
    · rw [totalBits_small hn h]
      refine ⟨by omega, ?_, Nat.lt_log2_self⟩
      rw [Nat.add_sub_cancel]
      exact Nat.log2_self_le hn
    · obtain ⟨h1, h2, h3⟩ := ih (n / 256) (by omega) (by omega)
      rw [totalBits_step (by omega)]
      refine ⟨by omega, ?_, ?_⟩
      · rw [show totalBits (n / 256) + 8 - 1 = totalBits (n / 256) - 1 + 8 by omega, Nat.pow_add]
        have h4 : (2 : Nat) ^ 8 = 256 := rfl
        rw [h4]
        generalize 2 ^ (totalBits (n / 256) - 1) = p at h2
        omega
      · rw [Nat.pow_add]
        have h4 : (2 : Nat) ^ 8 = 256 := rfl
        rw [h4]
        generalize 2 ^ totalBits (n / 256) = p at h3
        omega

/-- One component. -/
theorem encodeComponent_ok (enc : Bytes) (n : Nat) :
    ∃ bs, encodeComponent enc n = .ok (enc ++ bs) ∧ SubId n bs := by
  by_cases hn : n = 0
  · subst hn
    exact ⟨[0], rfl, [], 0, rfl, by simp, by decide, rfl, by decide⟩
  obtain ⟨hb0, hb1, hb2⟩ := totalBits_bounds hn
  obtain ⟨m, hm⟩ : ∃ m, max ((totalBits n + 6) / 7) 1 = m := ⟨_, rfl⟩
  have hm1 : 1 ≤ m := by omega
  have hV : n < 128 ^ m := by
    rw [pow128]
    exact Nat.lt_of_lt_of_le hb2 (Nat.pow_le_pow_right (by decide) (by omega))
  have hV' : 128 ^ (m - 1) ≤ n := by
    rw [pow128]
    exact Nat.le_trans (Nat.pow_le_pow_right (by decide) (by omega)) hb1
  obtain ⟨st, hst, ds, h1, h2, h3, h4⟩ := byteLoop_fin (pre := enc) hV hV' n 0 0
    { enc := enc ++ List.replicate m 0, pos := (enc ++ List.replicate m (0 : UInt8)).length - 1,
      extra := 0, extraSize := 0, stored := 0 }
    ⟨[], rfl, Nat.zero_le _, by simp, by simp, by simp, by simp, by simp, by simp [base128], by simp⟩
    (by simp)
  -- the octets before the last bit is cleared
  obtain ⟨xs, hx1, hx2, hx3, hx4⟩ : ∃ xs : Bytes, xs.length = m ∧ (∀ d ∈ xs, 128 ≤ d.toNat) ∧
      base128 xs = n ∧
      (if st.stored ≠ m then store st.enc (st.enc.length - 1 + 1 - m) (st.extra ||| 0x80)
        else .ok st.enc) = .ok (enc ++ xs) := by
    rcases h4 with ⟨hs, hv⟩ | ⟨hs, hv, hlt⟩
    · refine ⟨ds, by omega, h3, hv, ?_⟩
      rw [if_neg (by simp [hs]), h2, hs]; simp
    · refine ⟨(st.extra ||| 0x80) :: ds, by simp only [List.length_cons]; omega, ?_, ?_, ?_⟩
      · intro d hd
        rcases List.mem_cons.1 hd with rfl | hd
        · rw [or_128]; omega
        · exact h3 d hd
      · rw [base128, or_128, h1, ← hv, show (128 + st.extra.toNat % 128) % 128 = st.extra.toNat by omega]
        omega
      · have hpos : st.enc.length - 1 + 1 - m = enc.length + (0 + 1) - 1 := by
          rw [h2]
          simp only [List.length_append, List.length_replicate]; omega
        rw [if_pos (by omega), hpos, h2, show m - st.stored = 0 + 1 by omega, store_at]
        simp
  -- clear it
  obtain ⟨ms, last, rfl⟩ : ∃ ms last, xs = ms ++ [last] := by
    exact ⟨xs.dropLast, xs.getLast (List.ne_nil_of_length_pos (by omega)),
      (List.dropLast_concat_getLast _).symm⟩
  have hl : 128 ≤ last.toNat := hx2 last (by simp)
  have hx := xor_128 last hl
  have hlen : (enc ++ (ms ++ [last])).length - 1 = enc.length + ms.length := by
    simp only [List.length_append, List.length_singleton]; omega
  have hlast : st.enc.length - 1 = enc.length + ms.length := by
    rw [h2]
    simp only [List.length_append, List.length_replicate, List.length_singleton] at hx1 ⊢
    omega
  refine ⟨ms ++ [last ^^^ 0x80], ?_, ms, last ^^^ 0x80, rfl, fun d hd => hx2 d (by simp [hd]),
    ?_, ?_, ?_⟩
  · rw [encodeComponent, if_neg hn]
    simp only
    rw [show bitLen ((bytesLE n).getLast?.getD 0) + ((bytesLE n).length - 1) * 8 = totalBits n from rfl,
      hm, hst]
    simp only [ok_bind]
    rw [hx4]
    simp only [ok_bind, hlast]
    have hg : (enc ++ (ms ++ [last]))[enc.length + ms.length]? = some last := by
      rw [← List.append_assoc, List.getElem?_append_right (by simp)]
      simp
    rw [hg]
    simp only
    rw [store, if_pos (by simp only [List.length_append, List.length_singleton]; omega)]
    rw [← List.append_assoc, ← List.length_append, List.set_append_right _ _ (Nat.le_refl _)]
    simp
  · rw [hx]; have := last.toNat_lt; omega
  · rw [← hx3, base128_append, base128_append]
    have h6 : (last.toNat - 128) % 128 = last.toNat % 128 := by omega
    simp only [base128, hx, List.length_singleton, h6]
  · cases ms with
    | nil =>
      simp only [List.nil_append, List.head?_cons, ne_eq, Option.some.injEq]
      intro h
      have : (last ^^^ 0x80).toNat = 128 := by rw [h]; rfl
      have := last.toNat_lt
      omega
    | cons a ms =>
      simp only [List.cons_append, List.head?_cons, ne_eq, Option.some.injEq]
      rintro rfl
      simp only [List.cons_append, base128] at hx3
      have h5 := base128_lt (ms ++ [last])
      simp only [List.length_append, List.length_cons, List.length_nil, Nat.zero_add] at hx1 h5 hx3
      rw [show (128 : UInt8).toNat % 128 = 0 from rfl] at hx3
      rw [show m - 1 = ms.length + 1 by omega] at hV'
      omega

theorem encodeRest_ok (ns : List Nat) : ∀ enc : Bytes,
    ∃ bs, encodeRest enc ns = .ok (enc ++ bs) ∧ SubIds ns bs := by
  induction ns with
  | nil => intro enc; exact ⟨[], by simp [encodeRest], .nil⟩
  | cons n ns ih =>
    intro enc
    obtain ⟨b, h1, h2⟩ := encodeComponent_ok enc n
    obtain ⟨bs, h3, h4⟩ := ih (enc ++ b)
    refine ⟨b ++ bs, ?_, .cons n ns b bs h2 h4⟩
    rw [encodeRest, h1]
    simp only [ok_bind]
    rw [h3, List.append_assoc]

end OidMacro

/-! ## Subidentifiers determine the numbers and conversely -/

/-- A subidentifier ends at the first octet without bit 8. -/
theorem subId_split {n n' : Nat} {b b' x x' : Bytes} (h : SubId n b) (h' : SubId n' b')
    (e : b ++ x = b' ++ x') : b = b' ∧ x = x' := by
  obtain ⟨ms, l, rfl, h1, h2, -, -⟩ := h
  obtain ⟨ms', l', rfl, h1', h2', -, -⟩ := h'
  induction ms generalizing ms' with
  | nil =>
    cases ms' with
    | nil => simpa using e
    | cons a ms' =>
      simp only [List.nil_append, List.cons_append, List.cons.injEq] at e
      have := h1' a (by simp)
      rw [← e.1] at this; omega
  | cons a ms ih =>
    cases ms' with
    | nil =>
      simp only [List.nil_append, List.cons_append, List.cons.injEq] at e
      have := h1 a (by simp)
      rw [e.1] at this; omega
    | cons a' ms' =>
      simp only [List.cons_append, List.cons.injEq] at e
      obtain ⟨rfl, e⟩ := e
      obtain ⟨h3, h4⟩ := ih (fun m hm => h1 m (by simp [hm])) ms'
        (by simpa using e) (fun m hm => h1' m (by simp [hm]))
      exact ⟨by simp [h3], h4⟩

theorem subId_ne_nil {n : Nat} {b : Bytes} (h : SubId n b) : b ≠ [] := by
  obtain ⟨ms, l, rfl, -⟩ := h; simp

theorem subIds_unique {ns ns' : List Nat} {bs : Bytes} (h : SubIds ns bs) (h' : SubIds ns' bs) :
    ns = ns' := by
  induction h generalizing ns' with
  | nil =>
    generalize hb : ([] : Bytes) = bs at h'
    cases h' with
    | nil => rfl
    | cons n ns b bs h1 h2 => exact absurd (List.append_eq_nil_iff.1 hb.symm).1 (subId_ne_nil h1)
  | cons n ns b bs h1 h2 ih =>
    generalize hx : b ++ bs = x at h'
    cases h' with
    | nil => exact absurd (List.append_eq_nil_iff.1 hx).1 (subId_ne_nil h1)
    | cons n' ns' b' bs' h1' h2' =>
      obtain ⟨rfl, rfl⟩ := subId_split h1 h1' hx
      obtain ⟨_, _, _, _, _, e, _⟩ := h1
      obtain ⟨_, _, _, _, _, e', _⟩ := h1'
      rw [ih h2', ← e, ← e']

end Verif
