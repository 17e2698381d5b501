import Mathlib.Analysis.SpecialFunctions.Log.Base
import Mathlib.Analysis.Complex.ExponentialBounds
import Mathlib.Tactic.Positivity
import Mathlib.Tactic.FieldSimp
import Mathlib.Tactic.Linarith

/-!
# The polynomial of `log2_approx` against the binary logarithm

The interval from 1 to 2 is cut at eight rational points close to the powers of the eighth root of 2. On each piece the logarithm is
enclosed by `log (1 + x) ≥ 2 x / (x + 2)`, which leaves the sign of a cubic polynomial on an interval.
-/

namespace Simdpp

/-- The polynomial of `log2_approx` with the coefficients as `float` holds them. -/
noncomputable def log2Poly (m : ℝ) : ℝ := (-1446379 / 4194304 * m + 530753 / 262144) * m - 11322539 / 16777216

theorem log2_lower {m α : ℝ} {k : ℕ} (hα : 0 < α) (h8 : 2 ^ k ≤ α ^ 8) (hm : α ≤ m) :
    k / 8 + 1442695 / 1000000 * (2 * (m - α) / (m + α)) ≤ Real.logb 2 m := by
  have hL := Real.log_two_lt_d9
  have hL0 : 0 < Real.log 2 := Real.log_pos (by norm_num)
  have hm0 : 0 < m := lt_of_lt_of_le hα hm
  have e1 : (k : ℝ) * Real.log 2 ≤ 8 * Real.log α := by
    have := Real.log_le_log (by positivity) h8
    rwa [Real.log_pow, Real.log_pow] at this
  have e2 : 2 * (m - α) / (m + α) ≤ Real.log (m / α) := by
    have := Real.le_log_one_add_of_nonneg (x := (m - α) / α) (div_nonneg (by linarith) hα.le)
    have e3 : 1 + (m - α) / α = m / α := by field_simp; ring
    have e4 : 2 * ((m - α) / α) / ((m - α) / α + 2) = 2 * (m - α) / (m + α) := by
      have : m + α ≠ 0 := by positivity
      have h5 : (m - α) / α + 2 = (m + α) / α := by field_simp; ring
      rw [h5]; field_simp
    rwa [e3, e4] at this
  have e5 : Real.log m = Real.log α + Real.log (m / α) := by
    rw [Real.log_div hm0.ne' hα.ne']; ring
  have e6 : 0 ≤ 2 * (m - α) / (m + α) := div_nonneg (by linarith) (by linarith)
  unfold Real.logb
  rw [le_div_iff₀ hL0, e5]
  generalize 2 * (m - α) / (m + α) = X at *
  have : 1442695 / 1000000 * X * Real.log 2 ≤ X := by
    have : X * (1442695 / 1000000 * Real.log 2) ≤ X * 1 := mul_le_mul_of_nonneg_left (by linarith) e6
    linarith
  linarith

theorem log2_upper {m β : ℝ} {k : ℕ} (hm0 : 0 < m) (h8 : β ^ 8 ≤ 2 ^ k) (hm : m ≤ β) :
    Real.logb 2 m ≤ k / 8 - 1442695 / 1000000 * (2 * (β - m) / (β + m)) := by
  have hL := Real.log_two_lt_d9
  have hL0 : 0 < Real.log 2 := Real.log_pos (by norm_num)
  have hβ : 0 < β := lt_of_lt_of_le hm0 hm
  have e1 : 8 * Real.log β ≤ (k : ℝ) * Real.log 2 := by
    have := Real.log_le_log (by positivity) h8
    rwa [Real.log_pow, Real.log_pow] at this
  have e2 : 2 * (β - m) / (β + m) ≤ Real.log (β / m) := by
    have := Real.le_log_one_add_of_nonneg (x := (β - m) / m) (div_nonneg (by linarith) hm0.le)
    have e3 : 1 + (β - m) / m = β / m := by field_simp; ring
    have e4 : 2 * ((β - m) / m) / ((β - m) / m + 2) = 2 * (β - m) / (β + m) := by
      have : β + m ≠ 0 := by positivity
      have h5 : (β - m) / m + 2 = (β + m) / m := by field_simp; ring
      rw [h5]; field_simp
    rwa [e3, e4] at this
  have e5 : Real.log m = Real.log β - Real.log (β / m) := by
    rw [Real.log_div hβ.ne' hm0.ne']; ring
  have e6 : 0 ≤ 2 * (β - m) / (β + m) := div_nonneg (by linarith) (by linarith)
  unfold Real.logb
  rw [div_le_iff₀ hL0, e5]
  generalize 2 * (β - m) / (β + m) = X at *
  have : 1442695 / 1000000 * X * Real.log 2 ≤ X := by
    have : X * (1442695 / 1000000 * Real.log 2) ≤ X * 1 := mul_le_mul_of_nonneg_left (by linarith) e6
    linarith
  linarith

theorem piece_up {m α : ℝ} {k : ℕ} (hα : 0 < α) (h8 : 2 ^ k ≤ α ^ 8) (hm : α ≤ m)
    (hp : (log2Poly m - 1 - k / 8 - 506 / 100000) * (m + α) ≤ 2 * 1442695 / 1000000 * (m - α)) :
    log2Poly m - 1 - Real.logb 2 m ≤ 506 / 100000 := by
  have := log2_lower hα h8 hm
  have h0 : 0 < m + α := by linarith
  have h1 : log2Poly m - 1 - k / 8 - 506 / 100000 ≤ 1442695 / 1000000 * (2 * (m - α) / (m + α)) := by
    rw [← mul_div_assoc, le_div_iff₀ h0]; linarith
  linarith

theorem piece_lo {m β : ℝ} {k : ℕ} (hm0 : 0 < m) (h8 : β ^ 8 ≤ 2 ^ k) (hm : m ≤ β)
    (hp : -(2 * 1442695 / 1000000 * (β - m)) ≤ (log2Poly m - 1 - k / 8 + 506 / 100000) * (β + m)) :
    -(506 / 100000) ≤ log2Poly m - 1 - Real.logb 2 m := by
  have := log2_upper hm0 h8 hm
  have h0 : 0 < β + m := by linarith
  have h1 : -(log2Poly m - 1 - k / 8 + 506 / 100000) ≤ 1442695 / 1000000 * (2 * (β - m) / (β + m)) := by
    rw [← mul_div_assoc, le_div_iff₀ h0]; linarith
  linarith

section
variable {m a b : ℝ}
theorem bern3 (h1 : a ≤ m) (h2 : m ≤ b) : 0 ≤ (b - m) ^ 3 ∧ 0 ≤ (m - a) * (b - m) ^ 2 ∧ 0 ≤ (m - a) ^ 2 * (b - m) ∧ 0 ≤ (m - a) ^ 3 := by
  have ha : 0 ≤ m - a := by linarith
  have hb : 0 ≤ b - m := by linarith
  exact ⟨by positivity, by positivity, by positivity, by positivity⟩
end

theorem log2_up0 {m : ℝ} (h1 : (1 : ℝ) ≤ m) (h2 : m ≤ (272627 / 250000 : ℝ)) : log2Poly m - 1 - Real.logb 2 m ≤ 506 / 100000 := by
  refine piece_up (α := (1 : ℝ)) (k := 0) (by norm_num) (by norm_num) h1 ?_
  obtain ⟨b0, b1, b2, b3⟩ := bern3 h1 h2
  unfold log2Poly
  push_cast
  ring_nf at b0 b1 b2 b3 ⊢
  linarith

theorem log2_lo0 {m : ℝ} (h1 : (1 : ℝ) ≤ m) (h2 : m ≤ (1090507 / 1000000 : ℝ)) : -(506 / 100000) ≤ log2Poly m - 1 - Real.logb 2 m := by
  refine piece_lo (β := (1090507 / 1000000 : ℝ)) (k := 1) (by linarith) (by norm_num) h2 ?_
  obtain ⟨b0, b1, b2, b3⟩ := bern3 h1 h2
  unfold log2Poly
  push_cast
  ring_nf at b0 b1 b2 b3 ⊢
  linarith

theorem log2_up1 {m : ℝ} (h1 : (272627 / 250000 : ℝ) ≤ m) (h2 : m ≤ (148651 / 125000 : ℝ)) : log2Poly m - 1 - Real.logb 2 m ≤ 506 / 100000 := by
  refine piece_up (α := (272627 / 250000 : ℝ)) (k := 1) (by norm_num) (by norm_num) h1 ?_
  obtain ⟨b0, b1, b2, b3⟩ := bern3 h1 h2
  unfold log2Poly
  push_cast
  ring_nf at b0 b1 b2 b3 ⊢
  linarith

theorem log2_lo1 {m : ℝ} (h1 : (1090507 / 1000000 : ℝ) ≤ m) (h2 : m ≤ (1189207 / 1000000 : ℝ)) : -(506 / 100000) ≤ log2Poly m - 1 - Real.logb 2 m := by
  refine piece_lo (β := (1189207 / 1000000 : ℝ)) (k := 2) (by linarith) (by norm_num) h2 ?_
  obtain ⟨b0, b1, b2, b3⟩ := bern3 h1 h2
  unfold log2Poly
  push_cast
  ring_nf at b0 b1 b2 b3 ⊢
  linarith

theorem log2_up2 {m : ℝ} (h1 : (148651 / 125000 : ℝ) ≤ m) (h2 : m ≤ (32421 / 25000 : ℝ)) : log2Poly m - 1 - Real.logb 2 m ≤ 506 / 100000 := by
  refine piece_up (α := (148651 / 125000 : ℝ)) (k := 2) (by norm_num) (by norm_num) h1 ?_
  obtain ⟨b0, b1, b2, b3⟩ := bern3 h1 h2
  unfold log2Poly
  push_cast
  ring_nf at b0 b1 b2 b3 ⊢
  linarith

theorem log2_lo2a {m : ℝ} (h1 : (1189207 / 1000000 : ℝ) ≤ m) (h2 : m ≤ (1243 / 1000 : ℝ)) : -(506 / 100000) ≤ log2Poly m - 1 - Real.logb 2 m := by
  refine piece_lo (β := (1296839 / 1000000 : ℝ)) (k := 3) (by linarith) (by norm_num) (by linarith) ?_
  obtain ⟨b0, b1, b2, b3⟩ := bern3 h1 h2
  unfold log2Poly
  push_cast
  ring_nf at b0 b1 b2 b3 ⊢
  linarith

theorem log2_lo2b {m : ℝ} (h1 : (1243 / 1000 : ℝ) ≤ m) (h2 : m ≤ (1296839 / 1000000 : ℝ)) : -(506 / 100000) ≤ log2Poly m - 1 - Real.logb 2 m := by
  refine piece_lo (β := (1296839 / 1000000 : ℝ)) (k := 3) (by linarith) (by norm_num) h2 ?_
  obtain ⟨b0, b1, b2, b3⟩ := bern3 h1 h2
  unfold log2Poly
  push_cast
  ring_nf at b0 b1 b2 b3 ⊢
  linarith

theorem log2_up3 {m : ℝ} (h1 : (32421 / 25000 : ℝ) ≤ m) (h2 : m ≤ (707107 / 500000 : ℝ)) : log2Poly m - 1 - Real.logb 2 m ≤ 506 / 100000 := by
  refine piece_up (α := (32421 / 25000 : ℝ)) (k := 3) (by norm_num) (by norm_num) h1 ?_
  obtain ⟨b0, b1, b2, b3⟩ := bern3 h1 h2
  unfold log2Poly
  push_cast
  ring_nf at b0 b1 b2 b3 ⊢
  linarith

theorem log2_lo3 {m : ℝ} (h1 : (1296839 / 1000000 : ℝ) ≤ m) (h2 : m ≤ (1414213 / 1000000 : ℝ)) : -(506 / 100000) ≤ log2Poly m - 1 - Real.logb 2 m := by
  refine piece_lo (β := (1414213 / 1000000 : ℝ)) (k := 4) (by linarith) (by norm_num) h2 ?_
  obtain ⟨b0, b1, b2, b3⟩ := bern3 h1 h2
  unfold log2Poly
  push_cast
  ring_nf at b0 b1 b2 b3 ⊢
  linarith

theorem log2_up4 {m : ℝ} (h1 : (707107 / 500000 : ℝ) ≤ m) (h2 : m ≤ (1542211 / 1000000 : ℝ)) : log2Poly m - 1 - Real.logb 2 m ≤ 506 / 100000 := by
  refine piece_up (α := (707107 / 500000 : ℝ)) (k := 4) (by norm_num) (by norm_num) h1 ?_
  obtain ⟨b0, b1, b2, b3⟩ := bern3 h1 h2
  unfold log2Poly
  push_cast
  ring_nf at b0 b1 b2 b3 ⊢
  linarith

theorem log2_lo4 {m : ℝ} (h1 : (1414213 / 1000000 : ℝ) ≤ m) (h2 : m ≤ (154221 / 100000 : ℝ)) : -(506 / 100000) ≤ log2Poly m - 1 - Real.logb 2 m := by
  refine piece_lo (β := (154221 / 100000 : ℝ)) (k := 5) (by linarith) (by norm_num) h2 ?_
  obtain ⟨b0, b1, b2, b3⟩ := bern3 h1 h2
  unfold log2Poly
  push_cast
  ring_nf at b0 b1 b2 b3 ⊢
  linarith

theorem log2_up5 {m : ℝ} (h1 : (1542211 / 1000000 : ℝ) ≤ m) (h2 : m ≤ (1681793 / 1000000 : ℝ)) : log2Poly m - 1 - Real.logb 2 m ≤ 506 / 100000 := by
  refine piece_up (α := (1542211 / 1000000 : ℝ)) (k := 5) (by norm_num) (by norm_num) h1 ?_
  obtain ⟨b0, b1, b2, b3⟩ := bern3 h1 h2
  unfold log2Poly
  push_cast
  ring_nf at b0 b1 b2 b3 ⊢
  linarith

theorem log2_lo5 {m : ℝ} (h1 : (154221 / 100000 : ℝ) ≤ m) (h2 : m ≤ (26278 / 15625 : ℝ)) : -(506 / 100000) ≤ log2Poly m - 1 - Real.logb 2 m := by
  refine piece_lo (β := (26278 / 15625 : ℝ)) (k := 6) (by linarith) (by norm_num) h2 ?_
  obtain ⟨b0, b1, b2, b3⟩ := bern3 h1 h2
  unfold log2Poly
  push_cast
  ring_nf at b0 b1 b2 b3 ⊢
  linarith

theorem log2_up6a {m : ℝ} (h1 : (1681793 / 1000000 : ℝ) ≤ m) (h2 : m ≤ (17579 / 10000 : ℝ)) : log2Poly m - 1 - Real.logb 2 m ≤ 506 / 100000 := by
  refine piece_up (α := (1681793 / 1000000 : ℝ)) (k := 6) (by norm_num) (by norm_num) h1 ?_
  obtain ⟨b0, b1, b2, b3⟩ := bern3 h1 h2
  unfold log2Poly
  push_cast
  ring_nf at b0 b1 b2 b3 ⊢
  linarith

theorem log2_up6b {m : ℝ} (h1 : (17579 / 10000 : ℝ) ≤ m) (h2 : m ≤ (1834009 / 1000000 : ℝ)) : log2Poly m - 1 - Real.logb 2 m ≤ 506 / 100000 := by
  refine piece_up (α := (1681793 / 1000000 : ℝ)) (k := 6) (by norm_num) (by norm_num) (by linarith) ?_
  obtain ⟨b0, b1, b2, b3⟩ := bern3 h1 h2
  unfold log2Poly
  push_cast
  ring_nf at b0 b1 b2 b3 ⊢
  linarith

theorem log2_lo6 {m : ℝ} (h1 : (26278 / 15625 : ℝ) ≤ m) (h2 : m ≤ (229251 / 125000 : ℝ)) : -(506 / 100000) ≤ log2Poly m - 1 - Real.logb 2 m := by
  refine piece_lo (β := (229251 / 125000 : ℝ)) (k := 7) (by linarith) (by norm_num) h2 ?_
  obtain ⟨b0, b1, b2, b3⟩ := bern3 h1 h2
  unfold log2Poly
  push_cast
  ring_nf at b0 b1 b2 b3 ⊢
  linarith

theorem log2_up7 {m : ℝ} (h1 : (1834009 / 1000000 : ℝ) ≤ m) (h2 : m ≤ (2 : ℝ)) : log2Poly m - 1 - Real.logb 2 m ≤ 506 / 100000 := by
  refine piece_up (α := (1834009 / 1000000 : ℝ)) (k := 7) (by norm_num) (by norm_num) h1 ?_
  obtain ⟨b0, b1, b2, b3⟩ := bern3 h1 h2
  unfold log2Poly
  push_cast
  ring_nf at b0 b1 b2 b3 ⊢
  linarith

theorem log2_lo7 {m : ℝ} (h1 : (229251 / 125000 : ℝ) ≤ m) (h2 : m ≤ (2 : ℝ)) : -(506 / 100000) ≤ log2Poly m - 1 - Real.logb 2 m := by
  refine piece_lo (β := (2 : ℝ)) (k := 8) (by linarith) (by norm_num) h2 ?_
  obtain ⟨b0, b1, b2, b3⟩ := bern3 h1 h2
  unfold log2Poly
  push_cast
  ring_nf at b0 b1 b2 b3 ⊢
  linarith

/-- On the mantissas the polynomial is within 0.00506 of the binary logarithm plus one. -/
theorem log2Poly_err {m : ℝ} (h1 : 1 ≤ m) (h2 : m ≤ 2) : |log2Poly m - 1 - Real.logb 2 m| ≤ 506 / 100000 := by
  rw [abs_le]
  constructor
  ·
    rcases le_total m (1090507 / 1000000 : ℝ) with g0 | g0
    · exact log2_lo0 h1 g0
    rcases le_total m (1189207 / 1000000 : ℝ) with g1 | g1
    · exact log2_lo1 g0 g1
    rcases le_total m (1243 / 1000 : ℝ) with g2 | g2
    · exact log2_lo2a g1 g2
    rcases le_total m (1296839 / 1000000 : ℝ) with g3 | g3
    · exact log2_lo2b g2 g3
    rcases le_total m (1414213 / 1000000 : ℝ) with g4 | g4
    · exact log2_lo3 g3 g4
    rcases le_total m (154221 / 100000 : ℝ) with g5 | g5
    · exact log2_lo4 g4 g5
    rcases le_total m (26278 / 15625 : ℝ) with g6 | g6
    · exact log2_lo5 g5 g6
    rcases le_total m (229251 / 125000 : ℝ) with g7 | g7
    · exact log2_lo6 g6 g7
    exact log2_lo7 g7 h2
  ·
    rcases le_total m (272627 / 250000 : ℝ) with g0 | g0
    · exact log2_up0 h1 g0
    rcases le_total m (148651 / 125000 : ℝ) with g1 | g1
    · exact log2_up1 g0 g1
    rcases le_total m (32421 / 25000 : ℝ) with g2 | g2
    · exact log2_up2 g1 g2
    rcases le_total m (707107 / 500000 : ℝ) with g3 | g3
    · exact log2_up3 g2 g3
    rcases le_total m (1542211 / 1000000 : ℝ) with g4 | g4
    · exact log2_up4 g3 g4
    rcases le_total m (1681793 / 1000000 : ℝ) with g5 | g5
    · exact log2_up5 g4 g5
    rcases le_total m (17579 / 10000 : ℝ) with g6 | g6
    · exact log2_up6a g5 g6
    rcases le_total m (1834009 / 1000000 : ℝ) with g7 | g7
    · exact log2_up6b g6 g7
    exact log2_up7 g7 h2

end Simdpp
