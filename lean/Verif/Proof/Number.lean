import Verif.Spec.Number
import Verif.Model.Number

/-! Helper file: float order and conversions. -/

namespace Verif.Number

/-- Magnitude of a pattern without its sign bit, in units of `2^-1074`. -/
def magnitude (n : Nat) : Nat :=
  if n / 2 ^ 52 = 0 then n % 2 ^ 52 else (2 ^ 52 + n % 2 ^ 52) * 2 ^ (n / 2 ^ 52 - 1)

theorem signBit_eq (b : Bits) : signBit b = neg b := by
  unfold signBit neg
  rw [BitVec.msb_eq_decide]

theorem expField_eq (b : Bits) : expField b = expo b := by
  unfold expField expo
  rw [BitVec.extractLsb'_toNat, Nat.shiftRight_eq_div_pow]

theorem fracField_eq (b : Bits) : fracField b = frac b := by
  unfold fracField frac
  rw [BitVec.extractLsb'_toNat, Nat.shiftRight_zero]

theorem nan_iff (b : Bits) : isNaN b = true ↔ NaN b := by
  simp [isNaN, NaN, expField_eq, fracField_eq]

theorem nan_false_iff (b : Bits) : isNaN b = false ↔ ¬ NaN b := by
  rw [← nan_iff]; simp

theorem absScaled_eq (b : Bits) : absScaled b = magnitude (b.toNat % 2 ^ 63) := by
  unfold absScaled magnitude
  rw [expField_eq, fracField_eq]
  unfold expo frac
  have h1 : b.toNat % 2 ^ 63 / 2 ^ 52 = b.toNat / 2 ^ 52 % 2 ^ 11 := by omega
  have h2 : b.toNat % 2 ^ 63 % 2 ^ 52 = b.toNat % 2 ^ 52 := by omega
  rw [h1, h2]

theorem scaled_eq (b : Bits) :
    scaled b = if neg b then -(magnitude (b.toNat - 2 ^ 63) : Int) else (magnitude b.toNat : Int) := by
  unfold scaled
  rw [signBit_eq, absScaled_eq]
  have := b.isLt
  unfold neg
  by_cases h : 2 ^ 63 ≤ b.toNat
  · rw [if_pos (by simpa using h), if_pos (by simpa using h), show b.toNat % 2 ^ 63 = b.toNat - 2 ^ 63 by omega]
  · rw [if_neg (by simpa using h), if_neg (by simpa using h), show b.toNat % 2 ^ 63 = b.toNat by omega]

theorem magnitude_lt {n m : Nat} (h : n < m) : magnitude n < magnitude m := by
  have hn := Nat.div_add_mod n (2 ^ 52)
  have hm := Nat.div_add_mod m (2 ^ 52)
  have hn2 : n % 2 ^ 52 < 2 ^ 52 := Nat.mod_lt _ (by decide)
  have hm2 : m % 2 ^ 52 < 2 ^ 52 := Nat.mod_lt _ (by decide)
  have hle : n / 2 ^ 52 ≤ m / 2 ^ 52 := Nat.div_le_div_right (Nat.le_of_lt h)
  unfold magnitude
  generalize n / 2 ^ 52 = e at *
  generalize m / 2 ^ 52 = e' at *
  generalize n % 2 ^ 52 = f at *
  generalize m % 2 ^ 52 = f' at *
  have hpow : ∀ k, 1 ≤ 2 ^ k := fun k => Nat.one_le_two_pow
  by_cases he : e = e'
  · subst he
    have hf : f < f' := by omega
    split
    · exact hf
    · exact (Nat.mul_lt_mul_right (by have := hpow (e - 1); omega)).2 (by omega)
  · have hlt : e < e' := by omega
    rw [if_neg (show ¬ e' = 0 by omega)]
    have h1 : 2 ^ 52 * 2 ^ (e' - 1) ≤ (2 ^ 52 + f') * 2 ^ (e' - 1) := Nat.mul_le_mul_right _ (by omega)
    split
    · have := hpow (e' - 1)
      have h2 : 2 ^ 52 * 1 ≤ 2 ^ 52 * 2 ^ (e' - 1) := Nat.mul_le_mul_left _ this
      omega
    · rename_i hz
      have h3 : (2 ^ 52 + f) * 2 ^ (e - 1) < 2 ^ 53 * 2 ^ (e - 1) :=
        (Nat.mul_lt_mul_right (by have := hpow (e - 1); omega)).2 (by omega)
      have h4 : 2 ^ 53 * 2 ^ (e - 1) = 2 ^ 52 * 2 ^ e := by
        rw [show e = (e - 1) + 1 by omega, Nat.pow_succ 2 (e - 1)]
        simp only [Nat.add_sub_cancel]
        omega
      have h5 : 2 ^ 52 * 2 ^ e ≤ 2 ^ 52 * 2 ^ (e' - 1) := Nat.mul_le_mul_left _ (Nat.pow_le_pow_right (by decide) (by omega))
      omega

theorem magnitude_lt_iff {n m : Nat} : magnitude n < magnitude m ↔ n < m := by
  constructor
  · intro h
    rcases Nat.lt_trichotomy n m with h' | h' | h'
    · exact h'
    · subst h'; omega
    · have := magnitude_lt h'; omega
  · exact magnitude_lt

theorem magnitude_zero : magnitude 0 = 0 := by decide

theorem magnitude_pos {n : Nat} : 0 < magnitude n ↔ 0 < n := by
  rw [← magnitude_zero, magnitude_lt_iff]
  simp [magnitude_zero]

/-- The order key orders patterns as their real values. -/
theorem key_lt_iff (a b : Bits) : key a < key b ↔ scaled a < scaled b := by
  have h1 := @magnitude_lt_iff (a.toNat - 2 ^ 63) (b.toNat - 2 ^ 63)
  have h2 := @magnitude_lt_iff (b.toNat - 2 ^ 63) (a.toNat - 2 ^ 63)
  have h3 := @magnitude_lt_iff a.toNat b.toNat
  have p1 := @magnitude_pos (a.toNat - 2 ^ 63)
  have p2 := @magnitude_pos (b.toNat - 2 ^ 63)
  have p3 := @magnitude_pos a.toNat
  have p4 := @magnitude_pos b.toNat
  rw [scaled_eq, scaled_eq]
  unfold key neg
  simp only [decide_eq_true_eq]
  split <;> split <;> omega

theorem nan_not_finite {b : Bits} (h : Finite b) : isNaN b = false := by
  unfold Finite at h
  rw [expField_eq] at h
  simp [isNaN, h]

theorem key_eq_iff (a b : Bits) : key a = key b ↔ scaled a = scaled b := by
  have h1 := key_lt_iff a b
  have h2 := key_lt_iff b a
  omega

theorem fltLt_less (a b : Bits) : fltLt a b = true ↔ Less a b := by
  unfold fltLt Less
  rw [← key_lt_iff, ← nan_iff, ← nan_iff]
  simp [and_assoc]

theorem fltLt_iff {a b : Bits} (ha : Finite a) (hb : Finite b) : fltLt a b = true ↔ scaled a < scaled b := by
  rw [← key_lt_iff]
  simp [fltLt, nan_not_finite ha, nan_not_finite hb]

theorem natToFloat_lt {n : Nat} (h : n < 2 ^ 64) : (natToFloat n).toNat < 2 ^ 63 := by
  unfold natToFloat
  split
  · decide
  · rename_i hn
    have h1 := Nat.log2_self_le hn
    have h2 := @Nat.lt_log2_self n
    have he : n.log2 < 64 := by
      rcases Nat.lt_or_ge n.log2 64 with h' | h'
      · exact h'
      · have := Nat.pow_le_pow_right (show 0 < 2 by decide) h'; omega
    dsimp only
    generalize n.log2 = e at *
    split
    · rename_i h52
      have h3 : n * 2 ^ (52 - e) < 2 ^ 53 := by
        have : 2 ^ (e + 1) * 2 ^ (52 - e) = 2 ^ 53 := by rw [← Nat.pow_add]; congr 1; omega
        rw [← this]
        exact (Nat.mul_lt_mul_right (Nat.pow_pos (by decide))).2 h2
      rw [BitVec.toNat_ofNat]
      have h4 : (e + 1023) * 2 ^ 52 ≤ 1086 * 2 ^ 52 := Nat.mul_le_mul_right _ (by omega)
      exact Nat.lt_of_le_of_lt (Nat.mod_le _ _) (by omega)
    · rename_i h52
      have h3 : n / 2 ^ (e - 52) < 2 ^ 53 := by
        rw [Nat.div_lt_iff_lt_mul (Nat.pow_pos (by decide)), ← Nat.pow_add]
        rw [show 53 + (e - 52) = e + 1 by omega]; exact h2
      generalize n / 2 ^ (e - 52) = q at *
      generalize n % 2 ^ (e - 52) = r at *
      rw [BitVec.toNat_ofNat]
      have h4 : (e + 1023) * 2 ^ 52 ≤ 1086 * 2 ^ 52 := Nat.mul_le_mul_right _ (by omega)
      refine Nat.lt_of_le_of_lt (Nat.mod_le _ _) ?_
      split <;> omega

/-- Integers up to `2^53` are converted exactly. -/
theorem natToFloat_exact {n : Nat} (h : n < 2 ^ 53) : magnitude (natToFloat n).toNat = n * 2 ^ 1074 := by
  unfold natToFloat
  split
  · rename_i h0; subst h0; rw [Nat.zero_mul]; rfl
  · rename_i hn
    have h1 := Nat.log2_self_le hn
    have h2 := @Nat.lt_log2_self n
    have he : n.log2 < 53 := by
      rcases Nat.lt_or_ge n.log2 53 with h' | h'
      · exact h'
      · have := Nat.pow_le_pow_right (show 0 < 2 by decide) h'; omega
    dsimp only
    generalize n.log2 = e at *
    rw [if_pos (by omega)]
    have h3 : n * 2 ^ (52 - e) < 2 ^ 53 := by
      have : 2 ^ (e + 1) * 2 ^ (52 - e) = 2 ^ 53 := by rw [← Nat.pow_add]; congr 1; omega
      rw [← this]
      exact (Nat.mul_lt_mul_right (Nat.pow_pos (by decide))).2 h2
    have h3' : 2 ^ 52 ≤ n * 2 ^ (52 - e) := by
      have : 2 ^ e * 2 ^ (52 - e) = 2 ^ 52 := by rw [← Nat.pow_add]; congr 1; omega
      rw [← this]
      exact Nat.mul_le_mul_right _ h1
    have h4 : (e + 1023) * 2 ^ 52 ≤ 1075 * 2 ^ 52 := Nat.mul_le_mul_right _ (by omega)
    rw [BitVec.toNat_ofNat, Nat.mod_eq_of_lt (by omega)]
    generalize hg : n * 2 ^ (52 - e) = g at *
    have hd : ((e + 1023) * 2 ^ 52 + (g - 2 ^ 52)) / 2 ^ 52 = e + 1023 := by
      rw [Nat.mul_comm, Nat.mul_add_div (by decide), Nat.div_eq_of_lt (by omega), Nat.add_zero]
    have hm : ((e + 1023) * 2 ^ 52 + (g - 2 ^ 52)) % 2 ^ 52 = g - 2 ^ 52 := by
      rw [Nat.mul_comm, Nat.mul_add_mod, Nat.mod_eq_of_lt (by omega)]
    unfold magnitude
    rw [hd, hm, if_neg (by omega), show 2 ^ 52 + (g - 2 ^ 52) = g by omega, ← hg, Nat.mul_assoc, ← Nat.pow_add]
    have hx : 52 - e + (e + 1023 - 1) = 1074 := by omega
    rw [hx]

theorem magnitude_mk {e q : Nat} (h1 : 2 ^ 52 ≤ q) (h2 : q ≤ 2 ^ 53) (he : 1 ≤ e) :
    magnitude (e * 2 ^ 52 + (q - 2 ^ 52)) = q * 2 ^ (e - 1) := by
  rcases Nat.lt_or_ge q (2 ^ 53) with h3 | h3
  · have hd : (e * 2 ^ 52 + (q - 2 ^ 52)) / 2 ^ 52 = e := by
      rw [Nat.mul_comm, Nat.mul_add_div (by decide), Nat.div_eq_of_lt (by omega), Nat.add_zero]
    have hm : (e * 2 ^ 52 + (q - 2 ^ 52)) % 2 ^ 52 = q - 2 ^ 52 := by
      rw [Nat.mul_comm, Nat.mul_add_mod, Nat.mod_eq_of_lt (by omega)]
    unfold magnitude
    rw [hd, hm, if_neg (by omega), show 2 ^ 52 + (q - 2 ^ 52) = q by omega]
  · have hq : q = 2 ^ 53 := by omega
    subst hq
    have hx : e * 2 ^ 52 + (2 ^ 53 - 2 ^ 52) = (e + 1) * 2 ^ 52 := by omega
    have hd : ((e + 1) * 2 ^ 52) / 2 ^ 52 = e + 1 := Nat.mul_div_cancel _ (by decide)
    have hm : ((e + 1) * 2 ^ 52) % 2 ^ 52 = 0 := Nat.mul_mod_left _ _
    unfold magnitude
    rw [hx, hd, hm, if_neg (by omega)]
    have : 2 ^ (e + 1 - 1) = 2 * 2 ^ (e - 1) := by
      rw [show e + 1 - 1 = (e - 1) + 1 by omega, Nat.pow_succ, Nat.mul_comm]
    rw [this]
    generalize 2 ^ (e - 1) = z
    omega

/-- Larger integers are rounded to within half a unit in the last place. -/
theorem natToFloat_round {n : Nat} (h53 : 2 ^ 53 ≤ n) (h : n < 2 ^ 64) :
    ∃ m, magnitude (natToFloat n).toNat = m * 2 ^ 1074 ∧ m ≤ n + 2 ^ (n.log2 - 53) ∧ n ≤ m + 2 ^ (n.log2 - 53) := by
  have hn : n ≠ 0 := by omega
  have h1 := Nat.log2_self_le hn
  have h2 := @Nat.lt_log2_self n
  have he : n.log2 < 64 := by
    rcases Nat.lt_or_ge n.log2 64 with h' | h'
    · exact h'
    · have := Nat.pow_le_pow_right (show 0 < 2 by decide) h'; omega
  have he' : 53 ≤ n.log2 := by
    rcases Nat.lt_or_ge n.log2 53 with h' | h'
    · have := Nat.pow_le_pow_right (show 0 < 2 by decide) (show n.log2 + 1 ≤ 53 by omega); omega
    · exact h'
  unfold natToFloat
  rw [if_neg hn]
  dsimp only
  rw [if_neg (by omega)]
  generalize n.log2 = e at *
  have hp : 2 ^ (e - 52) = 2 * 2 ^ (e - 53) := by
    rw [show e - 52 = (e - 53) + 1 by omega, Nat.pow_succ, Nat.mul_comm]
  have hpos : 0 < 2 ^ (e - 53) := Nat.pow_pos (by decide)
  have h3 : n / 2 ^ (e - 52) < 2 ^ 53 := by
    rw [Nat.div_lt_iff_lt_mul (Nat.pow_pos (by decide)), ← Nat.pow_add]
    rw [show 53 + (e - 52) = e + 1 by omega]; exact h2
  have h3' : 2 ^ 52 ≤ n / 2 ^ (e - 52) := by
    rw [Nat.le_div_iff_mul_le (Nat.pow_pos (by decide)), ← Nat.pow_add]
    rw [show 52 + (e - 52) = e by omega]; exact h1
  have h4 := Nat.div_add_mod n (2 ^ (e - 52))
  have h5 : n % 2 ^ (e - 52) < 2 ^ (e - 52) := Nat.mod_lt _ (Nat.pow_pos (by decide))
  generalize n / 2 ^ (e - 52) = q at *
  generalize n % 2 ^ (e - 52) = r at *
  have key : ∀ q', 2 ^ 52 ≤ q' → q' ≤ 2 ^ 53 →
      magnitude (BitVec.ofNat 64 ((e + 1023) * 2 ^ 52 + (q' - 2 ^ 52))).toNat = (q' * 2 ^ (e - 52)) * 2 ^ 1074 := by
    intro q' a b
    have h6 : (e + 1023) * 2 ^ 52 ≤ 1086 * 2 ^ 52 := Nat.mul_le_mul_right _ (by omega)
    rw [BitVec.toNat_ofNat, Nat.mod_eq_of_lt (by omega), magnitude_mk a b (by omega), Nat.mul_assoc, ← Nat.pow_add]
    have : e + 1023 - 1 = e - 52 + 1074 := by omega
    rw [this]
  split
  · rename_i hc
    refine ⟨(q + 1) * 2 ^ (e - 52), key _ (by omega) (by omega), ?_, ?_⟩
    · rw [Nat.add_mul, Nat.one_mul, Nat.mul_comm q]; omega
    · rw [Nat.add_mul, Nat.one_mul, Nat.mul_comm q]; omega
  · rename_i hc
    refine ⟨q * 2 ^ (e - 52), key _ (by omega) (by omega), ?_, ?_⟩
    · rw [Nat.mul_comm q]; omega
    · rw [Nat.mul_comm q]; omega

theorem magnitude_multiple {m e : Nat} (h : (e + 1023) * 2 ^ 52 ≤ m) : ∃ k, magnitude m = k * 2 ^ (e + 1022) := by
  have h1 : e + 1023 ≤ m / 2 ^ 52 := (Nat.le_div_iff_mul_le (by decide)).2 h
  unfold magnitude
  rw [if_neg (by omega)]
  generalize m / 2 ^ 52 = E at *
  refine ⟨(2 ^ 52 + m % 2 ^ 52) * 2 ^ (E - 1 - (e + 1022)), ?_⟩
  rw [Nat.mul_assoc, ← Nat.pow_add]
  congr 2
  omega

theorem magnitude_below {m e : Nat} (h : m < (e + 1023) * 2 ^ 52) : magnitude m < 2 ^ 52 * 2 ^ (e + 1022) := by
  have h1 := magnitude_mk (e := e + 1023) (q := 2 ^ 52) (Nat.le_refl _) (by decide) (by omega)
  rw [Nat.sub_self, Nat.add_zero, show e + 1023 - 1 = e + 1022 by omega] at h1
  rw [← h1]
  exact magnitude_lt h

/-- The pattern and the rounding of a large integer. -/
theorem natToFloat_big {n : Nat} (h53 : 2 ^ 53 ≤ n) (h : n < 2 ^ 64) :
    ∃ e q r q' : Nat, 53 ≤ e ∧ e < 64 ∧ n = q * (2 * 2 ^ (e - 53)) + r ∧ r < 2 * 2 ^ (e - 53) ∧ 2 ^ 52 ≤ q ∧ q < 2 ^ 53 ∧
      ((q' = q + 1 ∧ (2 ^ (e - 53) < r ∨ (r = 2 ^ (e - 53) ∧ q % 2 = 1))) ∨
        (q' = q ∧ (r < 2 ^ (e - 53) ∨ (r = 2 ^ (e - 53) ∧ q % 2 = 0)))) ∧
      (natToFloat n).toNat = (e + 1023) * 2 ^ 52 + (q' - 2 ^ 52) := by
  have hn : n ≠ 0 := by omega
  have h1 := Nat.log2_self_le hn
  have h2 := @Nat.lt_log2_self n
  have he : n.log2 < 64 := by
    rcases Nat.lt_or_ge n.log2 64 with h' | h'
    · exact h'
    · have := Nat.pow_le_pow_right (show 0 < 2 by decide) h'; omega
  have he' : 53 ≤ n.log2 := by
    rcases Nat.lt_or_ge n.log2 53 with h' | h'
    · have := Nat.pow_le_pow_right (show 0 < 2 by decide) (show n.log2 + 1 ≤ 53 by omega); omega
    · exact h'
  unfold natToFloat
  rw [if_neg hn]
  dsimp only
  rw [if_neg (by omega)]
  generalize n.log2 = e at *
  have hp : 2 ^ (e - 52) = 2 * 2 ^ (e - 53) := by
    rw [show e - 52 = (e - 53) + 1 by omega, Nat.pow_succ, Nat.mul_comm]
  have hpos : 0 < 2 ^ (e - 53) := Nat.pow_pos (by decide)
  have h3 : n / 2 ^ (e - 52) < 2 ^ 53 := by
    rw [Nat.div_lt_iff_lt_mul (Nat.pow_pos (by decide)), ← Nat.pow_add]
    rw [show 53 + (e - 52) = e + 1 by omega]; exact h2
  have h3' : 2 ^ 52 ≤ n / 2 ^ (e - 52) := by
    rw [Nat.le_div_iff_mul_le (Nat.pow_pos (by decide)), ← Nat.pow_add]
    rw [show 52 + (e - 52) = e by omega]; exact h1
  have h4 := Nat.div_add_mod n (2 ^ (e - 52))
  have h5 : n % 2 ^ (e - 52) < 2 ^ (e - 52) := Nat.mod_lt _ (Nat.pow_pos (by decide))
  generalize n / 2 ^ (e - 52) = q at *
  generalize n % 2 ^ (e - 52) = r at *
  rw [hp] at h4 h5
  have h6 : (e + 1023) * 2 ^ 52 ≤ 1086 * 2 ^ 52 := Nat.mul_le_mul_right _ (by omega)
  refine ⟨e, q, r, if 2 ^ (e - 53) < r ∨ r = 2 ^ (e - 53) ∧ q % 2 = 1 then q + 1 else q, he', he, by rw [Nat.mul_comm q]; exact h4.symm, h5, h3', h3, ?_, ?_⟩
  · split
    · rename_i hc; exact Or.inl ⟨rfl, hc⟩
    · rename_i hc; exact Or.inr ⟨rfl, by omega⟩
  · rw [BitVec.toNat_ofNat, Nat.mod_eq_of_lt]
    split <;> omega

theorem scaled_of_small {b : Bits} (h : b.toNat < 2 ^ 63) : scaled b = (magnitude b.toNat : Int) := by
  rw [scaled_eq, neg, if_neg]
  simp only [decide_eq_true_eq]
  omega

/-- Every value is plus or minus the magnitude of a pattern below `2^63`. -/
theorem scaled_cases (c : Bits) : ∃ m, m < 2 ^ 63 ∧ (scaled c = (magnitude m : Int) ∨ scaled c = -(magnitude m : Int)) := by
  have hc := c.isLt
  rw [scaled_eq]
  split
  · exact ⟨c.toNat - 2 ^ 63, by omega, Or.inr rfl⟩
  · rename_i h
    simp only [neg, decide_eq_true_eq] at h
    exact ⟨c.toNat, by omega, Or.inl rfl⟩

theorem frac_even {b : Bits} {e q : Nat} (h : b.toNat = e * 2 ^ 52 + (q - 2 ^ 52)) (h1 : 2 ^ 52 ≤ q) (h2 : q % 2 = 0) :
    fracField b % 2 = 0 := by
  rw [fracField_eq, frac, h]
  omega

theorem natToFloat_finite {n : Nat} (h : n < 2 ^ 64) : Finite (natToFloat n) := by
  unfold Finite
  rw [expField_eq, expo]
  rcases Nat.lt_or_ge n (2 ^ 53) with h' | h'
  · intro h2
    have h3 := natToFloat_lt h
    have h4 := natToFloat_exact h'
    have h5 := @magnitude_lt_iff (2046 * 2 ^ 52) (natToFloat n).toNat
    have h6 := magnitude_mk (e := 2046) (q := 2 ^ 52) (Nat.le_refl _) (by decide) (by decide)
    rw [Nat.sub_self, Nat.add_zero] at h6
    have h7 := h5.2 (by omega)
    rw [h6, h4] at h7
    have h8 : n * 2 ^ 1074 < 2 ^ 53 * 2 ^ 1074 := (Nat.mul_lt_mul_right (Nat.pow_pos (by decide))).2 h'
    rw [← Nat.pow_add] at h7 h8
    have h9 : 2 ^ (53 + 1074) ≤ 2 ^ (52 + (2046 - 1)) := Nat.pow_le_pow_right (by decide) (by decide)
    exact absurd (Nat.lt_of_lt_of_le (Nat.lt_trans h7 h8) h9) (Nat.lt_irrefl _)
  · obtain ⟨e, q, r, q', h1, h2, h3, h4, h5, h6, h7, h8⟩ := natToFloat_big h' h
    rw [h8]
    have : (e + 1023) * 2 ^ 52 ≤ 1086 * 2 ^ 52 := Nat.mul_le_mul_right _ (by omega)
    omega

/-- The conversion of an unsigned integer is the nearest float, ties to even. -/
theorem natToFloat_rounds {n : Nat} (h : n < 2 ^ 64) : RoundsTo n (natToFloat n) := by
  refine ⟨natToFloat_finite h, ?_⟩
  intro c _
  rw [scaled_of_small (natToFloat_lt h)]
  rcases Nat.lt_or_ge n (2 ^ 53) with h' | h'
  · rw [natToFloat_exact h', Int.natCast_mul]
    have : ((2 ^ 1074 : Nat) : Int) = 2 ^ 1074 := by simp
    rw [this]
    generalize (n : Int) * 2 ^ 1074 = T
    omega
  · obtain ⟨e, q, r, q', h1, h2, h3, h4, h5, h6, h7, h8⟩ := natToFloat_big h' h
    have hb : magnitude (natToFloat n).toNat = q' * 2 ^ (e + 1022) := by
      rw [h8, magnitude_mk (by omega) (by omega) (by omega)]
      congr 1
    have hev : q' % 2 = 0 → fracField (natToFloat n) % 2 = 0 := frac_even h8 (by omega)
    generalize natToFloat n = b at *
    have hU : 2 ^ (e + 1022) = 2 * (2 ^ (e - 53) * 2 ^ 1074) := by
      rw [← Nat.pow_add, show e + 1022 = (e - 53 + 1074) + 1 by omega, Nat.pow_succ, Nat.mul_comm]
    have hT : (n : Int) * 2 ^ 1074 = ((q * 2 ^ (e + 1022) + r * 2 ^ 1074 : Nat) : Int) := by
      have : (2 ^ 1074 : Int) = ((2 ^ 1074 : Nat) : Int) := by simp
      rw [this, ← Int.natCast_mul, h3, Nat.add_mul, hU, Nat.mul_assoc q, Nat.mul_assoc 2]
    have hV : 0 < 2 ^ (e - 53) * 2 ^ 1074 := Nat.mul_pos (Nat.pow_pos (by decide)) (Nat.pow_pos (by decide))
    have hS : 0 < 2 ^ 1074 := Nat.pow_pos (by decide)
    have c1 : r < 2 ^ (e - 53) → r * 2 ^ 1074 < 2 ^ (e - 53) * 2 ^ 1074 := fun h => (Nat.mul_lt_mul_right hS).2 h
    have c2 : 2 ^ (e - 53) < r → 2 ^ (e - 53) * 2 ^ 1074 < r * 2 ^ 1074 := fun h => (Nat.mul_lt_mul_right hS).2 h
    have c3 : r = 2 ^ (e - 53) → r * 2 ^ 1074 = 2 ^ (e - 53) * 2 ^ 1074 := fun h => by rw [h]
    have c4 : r * 2 ^ 1074 < 2 * (2 ^ (e - 53) * 2 ^ 1074) := by
      rw [← Nat.mul_assoc]; exact (Nat.mul_lt_mul_right hS).2 h4
    have d1 : 2 ^ 52 * 2 ^ (e + 1022) ≤ q * 2 ^ (e + 1022) := Nat.mul_le_mul_right _ h5
    have hz : 2 ^ (e + 1022) ≤ 2 ^ 52 * 2 ^ (e + 1022) := Nat.le_mul_of_pos_left _ (by decide)
    have hq' : (q' = q + 1 ∧ q' * 2 ^ (e + 1022) = q * 2 ^ (e + 1022) + 2 ^ (e + 1022)) ∨ (q' = q ∧ q' * 2 ^ (e + 1022) = q * 2 ^ (e + 1022)) := by
      rcases h7 with ⟨h7, _⟩ | ⟨h7, _⟩ <;> subst h7
      · exact Or.inl ⟨rfl, by rw [Nat.add_mul, Nat.one_mul]⟩
      · exact Or.inr ⟨rfl, rfl⟩
    rw [hT, hb]
    obtain ⟨m, hm, hs⟩ := scaled_cases c
    have hmc : magnitude m < 2 ^ 52 * 2 ^ (e + 1022) ∨ ∃ k, magnitude m = k * 2 ^ (e + 1022) ∧
        (k = q ∨ k + 1 ≤ q ∨ k = q + 1 ∨ q + 2 ≤ k) := by
      rcases Nat.lt_or_ge m ((e + 1023) * 2 ^ 52) with h' | h'
      · exact Or.inl (magnitude_below h')
      · obtain ⟨k, hk⟩ := magnitude_multiple h'
        exact Or.inr ⟨k, hk, by omega⟩
    have hdist : (magnitude m < 2 ^ 52 * 2 ^ (e + 1022)) ∨ magnitude m = q * 2 ^ (e + 1022) ∨
        magnitude m + 2 ^ (e + 1022) ≤ q * 2 ^ (e + 1022) ∨ magnitude m = q * 2 ^ (e + 1022) + 2 ^ (e + 1022) ∨
        q * 2 ^ (e + 1022) + 2 * 2 ^ (e + 1022) ≤ magnitude m := by
      rcases hmc with hmc | ⟨k, hk, hk' | hk' | hk' | hk'⟩
      · exact Or.inl hmc
      · exact Or.inr (Or.inl (by rw [hk, hk']))
      · have := Nat.mul_le_mul_right (2 ^ (e + 1022)) hk'
        rw [Nat.add_mul, Nat.one_mul, ← hk] at this
        exact Or.inr (Or.inr (Or.inl this))
      · exact Or.inr (Or.inr (Or.inr (Or.inl (by rw [hk, hk', Nat.add_mul, Nat.one_mul]))))
      · have := Nat.mul_le_mul_right (2 ^ (e + 1022)) hk'
        rw [Nat.add_mul, ← hk] at this
        exact Or.inr (Or.inr (Or.inr (Or.inr this)))
    clear hmc hT hb h8 hm
    have hev2 : q' % 2 = 0 → fracField b % 2 = 0 := hev
    generalize magnitude m = M at *
    generalize q * 2 ^ (e + 1022) = qU at *
    generalize q' * 2 ^ (e + 1022) = qU' at *
    generalize hw : 2 ^ 52 * 2 ^ (e + 1022) = W at *
    generalize 2 ^ (e + 1022) = U at *
    generalize 2 ^ (e - 53) * 2 ^ 1074 = V at *
    generalize r * 2 ^ 1074 = R at *
    generalize 2 ^ (e - 53) = hf at *
    generalize scaled c = sc at *
    generalize fracField b = fb at *
    clear hS h3 hw
    rcases hs with hs | hs <;> subst hs <;> rcases h7 with ⟨h7, h7' | ⟨h7', h7''⟩⟩ | ⟨h7, h7' | ⟨h7', h7''⟩⟩ <;> subst h7 <;>
      rcases hdist with hd | hd | hd | hd | hd <;> omega

end Verif.Number
