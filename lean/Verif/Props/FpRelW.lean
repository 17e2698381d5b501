import Verif.Props.FpRel
import Verif.Spec.FpRange

/-!
# Relative rounding error of `float` and `double` operations

The lemmas of `FpRel.lean` for both element sizes.
-/

namespace Simdpp
open Spec Spec.Fp Spec.Flt

namespace Spec.Fp
variable {w : Nat}

theorem eps_pos (w : Nat) : (0 : ℝ) < eps w := by unfold eps; positivity

theorem eps_le (hw : FW w) : eps w ≤ 1 / 2 := by
  have h : (2 : ℝ) ^ 1 ≤ 2 ^ prec w := pow_le_pow_right₀ (by norm_num) (by rcases hw with e | e <;> subst e <;> decide)
  unfold eps
  rw [pow_one] at h
  exact one_div_le_one_div_of_le (by norm_num) h

theorem huge_pos (w : Nat) : (0 : ℝ) < huge w := by unfold huge; positivity
theorem tiny_pos (w : Nat) : (0 : ℝ) < tiny w := by unfold tiny; positivity

theorem numMag_inf (hw : FW w) : (numMag w (infBits w) : ℝ) = 2 * huge w * 2 ^ unit w := by
  unfold huge
  rcases hw with e | e <;> subst e
  · rw [numMag_inf32, if_pos rfl, show unit 32 = 149 from rfl]
    push_cast
    rw [show (277 : Nat) = 1 + 127 + 149 from rfl, pow_add, pow_add, pow_one]
  · rw [numMag_inf64, if_neg (by decide), show unit 64 = 1074 from rfl]
    push_cast
    rw [show (2098 : Nat) = 1 + 1023 + 1074 from rfl, pow_add, pow_add, pow_one]

theorem tiny_unit (hw : FW w) : tiny w * 2 ^ unit w = 2 ^ (prec w - 1) := by
  unfold tiny
  rcases hw with e | e <;> subst e
  · rw [if_pos rfl, show unit 32 = 126 + 23 from rfl, show prec 32 - 1 = 23 from rfl, pow_add, one_div, ← mul_assoc, inv_mul_cancel₀ (by positivity), one_mul]
  · rw [if_neg (by decide), show unit 64 = 1022 + 52 from rfl, show prec 64 - 1 = 52 from rfl, pow_add, one_div, ← mul_assoc,
      inv_mul_cancel₀ (by positivity), one_mul]



theorem num_round_zero (hw : FW w) (k : Nat) : num (Fp.round w k 0) = 0 := by
  rw [num_eq_zero, round_mag hw, Int.natAbs_zero]
  unfold rndMag
  have : len 0 = 0 := rfl
  dsimp only
  rw [this, Nat.zero_sub, Nat.zero_max, Nat.sub_self, Nat.zero_mul, Nat.zero_add]
  have : rne 0 k = 0 := by
    unfold rne; simp
  rw [this]; simp

theorem round_relW (hw : FW w) {k : Nat} {z : Int} (h1 : k = 0 ∨ (2 : ℝ) ^ (prec w - 1 + k) ≤ |(z : ℝ)|)
    (h2 : 2 * |(z : ℝ)| < numMag w (infBits w) * 2 ^ k) :
    isFinite (Fp.round w k z) = true ∧ ∃ ε : ℝ, |ε| ≤ eps w ∧ (num (Fp.round w k z) : ℝ) * 2 ^ k = z * (1 + ε) := by
  have hp : 1 ≤ prec w := by rcases hw with e | e <;> subst e <;> decide
  have hzc : |(z : ℝ)| = (z.natAbs : ℝ) := by rw [Nat.cast_natAbs]; push_cast; rfl
  rw [hzc] at h1 h2
  have h2' : 2 * z.natAbs < numMag w (infBits w) * 2 ^ k := by exact_mod_cast h2
  have hf : isFinite (Fp.round w k z) = true := round_finite hw h2'
  refine ⟨hf, ?_⟩
  by_cases hz0 : z = 0
  · subst hz0
    refine ⟨0, by rw [abs_zero]; exact (eps_pos w).le, ?_⟩
    rw [num_round_zero hw]; simp
  · by_cases hs : k = 0 ∧ z.natAbs < 2 ^ prec w
    · obtain ⟨rfl, hs⟩ := hs
      refine ⟨0, by rw [abs_zero]; exact (eps_pos w).le, ?_⟩
      have := num_round hw (z := z) (s := z.natAbs) (q := 0) (by simp) hs (by
        rw [pow_zero, Nat.mul_one] at h2' ⊢; omega)
      rw [this.1]; simp
    · have hl : prec w + k ≤ len z.natAbs := by
        by_contra hc
        have h3 : z.natAbs < 2 ^ (prec w - 1 + k) := lt_of_lt_of_le (lt_len _) (Nat.pow_le_pow_right (by decide) (by omega))
        rcases h1 with rfl | h1
        · exact hs ⟨rfl, lt_of_lt_of_le h3 (Nat.pow_le_pow_right (by decide) (by omega))⟩
        · have : 2 ^ (prec w - 1 + k) ≤ z.natAbs := by exact_mod_cast h1
          omega
      have he := round_err hw hf (lt_len z.natAbs) (show k ≤ len z.natAbs - prec w by omega)
      have hg := len_ge (m := z.natAbs) (by omega)
      have hzr : (z : ℝ) ≠ 0 := by exact_mod_cast hz0
      refine ⟨((num (Fp.round w k z) : ℝ) * 2 ^ k - z) / z, ?_, by field_simp; ring⟩
      rw [abs_div, div_le_iff₀ (abs_pos.2 hzr), hzc]
      have he' : 2 * |(num (Fp.round w k z) : ℝ) * 2 ^ k - z| ≤ 2 ^ (len z.natAbs - prec w) := by exact_mod_cast he
      have hg' : (2 : ℝ) ^ (len z.natAbs - 1) ≤ z.natAbs := by exact_mod_cast hg
      have e : (2 : ℝ) ^ (len z.natAbs - 1) = 2 ^ (len z.natAbs - prec w) * 2 ^ (prec w - 1) := by
        rw [← pow_add]; congr 1; omega
      rw [e] at hg'
      have : eps w * (z.natAbs : ℝ) ≥ eps w * (2 ^ (len z.natAbs - prec w) * 2 ^ (prec w - 1)) := mul_le_mul_of_nonneg_left hg' (eps_pos w).le
      refine le_trans ?_ this
      have e2 : eps w * 2 ^ (prec w - 1) = 1 / 2 := by
        unfold eps
        obtain ⟨q, hq⟩ := Nat.exists_eq_add_of_le hp
        rw [hq, Nat.add_sub_cancel_left, pow_add, pow_one]
        have : (2 : ℝ) ^ q ≠ 0 := by positivity
        field_simp
      rw [mul_comm ((2 : ℝ) ^ (len z.natAbs - prec w)), ← mul_assoc, e2]
      linarith

theorem real_eqW (x : BitVec w) : (num x : ℝ) = real x * 2 ^ unit w := by
  unfold real
  have : (2 : ℝ) ^ unit w ≠ 0 := by positivity
  field_simp

theorem real_of_numW {x : BitVec w} {v : ℝ} (h : (num x : ℝ) = v * 2 ^ unit w) : real x = v := by
  rw [real_eqW] at h
  exact mul_right_cancel₀ (by positivity) h

theorem real_zero_iffW {x : BitVec w} : real x = 0 ↔ num x = 0 := by
  rw [← Int.cast_eq_zero (α := ℝ), real_eqW]
  simp

/-- A rounded exact value `v`, given in units `2 ^ -(unit w + k)`. -/
theorem round_realW (hw : FW w) {k : Nat} {z : Int} {v : ℝ} (hz : (z : ℝ) = v * 2 ^ (unit w + k)) (h1 : k = 0 ∨ tiny w ≤ |v|) (h2 : |v| < huge w) :
    isFinite (Fp.round w k z) = true ∧ ∃ ε : ℝ, |ε| ≤ eps w ∧ real (Fp.round w k z) = v * (1 + ε) := by
  have ha : |(z : ℝ)| = |v| * 2 ^ unit w * 2 ^ k := by
    rw [hz, abs_mul, abs_of_pos (by positivity : (0 : ℝ) < 2 ^ (unit w + k)), pow_add, mul_assoc]
  have hk : (0 : ℝ) < 2 ^ k := by positivity
  have hu : (0 : ℝ) < 2 ^ unit w := by positivity
  obtain ⟨hf, ε, he, hr⟩ := round_relW hw (k := k) (z := z) (by
    refine h1.imp_right fun h1 => ?_
    rw [ha, pow_add, ← tiny_unit hw]
    exact mul_le_mul_of_nonneg_right (mul_le_mul_of_nonneg_right h1 hu.le) hk.le) (by
    rw [ha, numMag_inf hw]
    have : |v| * 2 ^ unit w * 2 ^ k < huge w * 2 ^ unit w * 2 ^ k := mul_lt_mul_of_pos_right (mul_lt_mul_of_pos_right h2 hu) hk
    linarith)
  refine ⟨hf, ε, he, real_of_numW ?_⟩
  rw [hz, pow_add] at hr
  have : (num (Fp.round w k z) : ℝ) * 2 ^ k = (v * (1 + ε) * 2 ^ unit w) * 2 ^ k := by rw [hr]; ring
  exact mul_right_cancel₀ hk.ne' this

theorem mul_relW (hw : FW w) {x y : BitVec w} (fx : isFinite x = true) (fy : isFinite y = true) (h1 : tiny w ≤ |real x * real y|)
    (h2 : |real x * real y| < huge w) :
    isFinite (Fp.mul x y) = true ∧ ∃ ε : ℝ, |ε| ≤ eps w ∧ real (Fp.mul x y) = real x * real y * (1 + ε) := by
  obtain ⟨nx, ix⟩ := not_nan_of_finite fx
  obtain ⟨ny, iy⟩ := not_nan_of_finite fy
  have h0 : num x * num y ≠ 0 := by
    intro e
    have : real x * real y = 0 := by
      rcases Int.mul_eq_zero.1 e with e | e <;> rw [real_zero_iffW.2 e] <;> simp
    rw [this, abs_zero] at h1
    exact absurd h1 (not_le.2 (tiny_pos w))
  unfold Fp.mul
  simp only [nx, ny, ix, iy, Bool.or_self, Bool.false_eq_true, if_false, if_neg h0]
  refine round_realW hw (k := unit w) ?_ (Or.inr h1) h2
  push_cast
  rw [real_eqW, real_eqW, pow_add]
  ring

theorem add_relW (hw : FW w) {x y : BitVec w} (fx : isFinite x = true) (fy : isFinite y = true) (h2 : |real x + real y| < huge w) :
    isFinite (Fp.add x y) = true ∧ ∃ ε : ℝ, |ε| ≤ eps w ∧ real (Fp.add x y) = (real x + real y) * (1 + ε) := by
  obtain ⟨nx, ix⟩ := not_nan_of_finite fx
  obtain ⟨ny, iy⟩ := not_nan_of_finite fy
  unfold Fp.add
  simp only [nx, ny, ix, iy, Bool.or_self, Bool.false_eq_true, if_false]
  by_cases h0 : num x + num y = 0
  · rw [if_pos h0]
    refine ⟨?_, 0, by rw [abs_zero]; exact (eps_pos w).le, ?_⟩
    · rw [isFinite_iff, mk_mag hw (by positivity)]; rcases hw with e | e <;> subst e <;> decide
    · have e1 : real (mk w (x.msb && y.msb) 0) = 0 := by
        rw [real_zero_iffW, num_mk hw (by positivity), numMag_zero]; simp
      have e2 : real x + real y = 0 := by
        have : (num x : ℝ) + num y = 0 := by exact_mod_cast h0
        rw [real_eqW, real_eqW, ← add_mul] at this
        exact (mul_eq_zero.1 this).resolve_right (by positivity)
      rw [e1, e2, zero_mul]
  · rw [if_neg h0]
    refine round_realW hw (k := 0) ?_ (Or.inl rfl) h2
    push_cast
    rw [real_eqW, real_eqW, Nat.add_zero]
    ring

end Spec.Fp
end Simdpp
