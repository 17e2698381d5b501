import Verif.Props.FpDiv
import Verif.Props.FConvU32
import Verif.Model.FDiv
import Verif.Props.FMul

/-!
# Relative rounding error of `float` operations

Away from overflow and underflow a `float` operation is exact up to a factor `1 + ε` with `|ε| ≤ 2 ^ -24`.
-/

namespace Simdpp
open Spec Spec.Fp Spec.Flt

namespace Spec.Fp

/-- Half the distance from 1 to the next number. -/
noncomputable def ulp : ℝ := 1 / 2 ^ 24

theorem ulp_pos : (0 : ℝ) < ulp := by unfold ulp; positivity

theorem round_rel {k : Nat} {z : Int} (h1 : k = 0 ∨ (2 : ℝ) ^ (23 + k) ≤ |(z : ℝ)|) (h2 : |(z : ℝ)| < 2 ^ (276 + k)) :
    isFinite (Fp.round 32 k z) = true ∧ ∃ ε : ℝ, |ε| ≤ ulp ∧ (num (Fp.round 32 k z) : ℝ) * 2 ^ k = z * (1 + ε) := by
  have hzc : |(z : ℝ)| = (z.natAbs : ℝ) := by rw [Nat.cast_natAbs]; push_cast; rfl
  rw [hzc] at h1 h2
  have h2' : z.natAbs < 2 ^ (276 + k) := by exact_mod_cast h2
  have hf : isFinite (Fp.round 32 k z) = true := by
    apply round_finite fw32
    rw [numMag_inf32, ← pow_add, show 277 + k = (276 + k) + 1 by omega, pow_succ]
    omega
  refine ⟨hf, ?_⟩
  by_cases hz0 : z = 0
  · subst hz0
    refine ⟨0, by rw [abs_zero]; exact ulp_pos.le, ?_⟩
    have : num (Fp.round 32 k 0) = 0 := by
      rw [num_eq_zero, round_mag fw32, Int.natAbs_zero]
      unfold rndMag
      have : len 0 = 0 := rfl
      dsimp only
      rw [this, Nat.zero_sub, Nat.zero_max, Nat.sub_self, Nat.zero_mul, Nat.zero_add]
      have : rne 0 k = 0 := by
        unfold rne; simp
      rw [this]; simp
    rw [this]; simp
  · by_cases hs : k = 0 ∧ z.natAbs < 2 ^ 24
    · obtain ⟨rfl, hs⟩ := hs
      refine ⟨0, by rw [abs_zero]; exact ulp_pos.le, ?_⟩
      have := num_round fw32 (z := z) (s := z.natAbs) (q := 0) (by simp) hs (by
        rw [numMag_inf32, pow_zero, Nat.mul_one]; exact lt_of_lt_of_le h2' (Nat.pow_le_pow_right (by decide) (by decide : 276 + 0 ≤ 277)))
      rw [this.1]; simp
    · have hl : 24 + k ≤ len z.natAbs := by
        by_contra hc
        have h3 : z.natAbs < 2 ^ (23 + k) := lt_of_lt_of_le (lt_len _) (Nat.pow_le_pow_right (by decide) (by omega))
        rcases h1 with rfl | h1
        · exact hs ⟨rfl, lt_trans h3 (by norm_num)⟩
        · have : 2 ^ (23 + k) ≤ z.natAbs := by exact_mod_cast h1
          omega
      have he := round_err fw32 hf (lt_len z.natAbs) (show k ≤ len z.natAbs - 24 by omega)
      have hg := len_ge (m := z.natAbs) (by omega)
      have hzr : (z : ℝ) ≠ 0 := by exact_mod_cast hz0
      refine ⟨((num (Fp.round 32 k z) : ℝ) * 2 ^ k - z) / z, ?_, by field_simp; ring⟩
      rw [abs_div, div_le_iff₀ (abs_pos.2 hzr), hzc]
      have he' : 2 * |(num (Fp.round 32 k z) : ℝ) * 2 ^ k - z| ≤ 2 ^ (len z.natAbs - 24) := by exact_mod_cast he
      have hg' : (2 : ℝ) ^ (len z.natAbs - 1) ≤ z.natAbs := by exact_mod_cast hg
      have e : (2 : ℝ) ^ (len z.natAbs - 1) = 2 ^ (len z.natAbs - 24) * 2 ^ 23 := by
        rw [← pow_add]; congr 1; omega
      rw [e] at hg'
      have : ulp * (z.natAbs : ℝ) ≥ ulp * (2 ^ (len z.natAbs - 24) * 2 ^ 23) := mul_le_mul_of_nonneg_left hg' ulp_pos.le
      refine le_trans ?_ this
      generalize (2 : ℝ) ^ (len z.natAbs - 24) = P at *
      unfold ulp
      linarith

theorem real_eq (x : BitVec 32) : (num x : ℝ) = real x * 2 ^ 149 := by
  unfold real
  rw [show unit 32 = 149 from rfl]
  field_simp

theorem real_of_num {x : BitVec 32} {v : ℝ} (h : (num x : ℝ) = v * 2 ^ 149) : real x = v := by
  rw [real_eq] at h
  exact mul_right_cancel₀ (by positivity) h

theorem real_zero_iff {x : BitVec 32} : real x = 0 ↔ num x = 0 := by
  rw [← Int.cast_eq_zero (α := ℝ), real_eq]
  simp

/-- A rounded exact value `v`, given in units `2 ^ -(149 + k)`. -/
theorem round_real {k : Nat} {z : Int} {v : ℝ} (hz : (z : ℝ) = v * 2 ^ (149 + k)) (h1 : k = 0 ∨ 1 / 2 ^ 126 ≤ |v|) (h2 : |v| < 2 ^ 127) :
    isFinite (Fp.round 32 k z) = true ∧ ∃ ε : ℝ, |ε| ≤ ulp ∧ real (Fp.round 32 k z) = v * (1 + ε) := by
  have ha : |(z : ℝ)| = |v| * 2 ^ (149 + k) := by rw [hz, abs_mul, abs_of_pos (by positivity : (0 : ℝ) < 2 ^ (149 + k))]
  obtain ⟨hf, ε, he, hr⟩ := round_rel (k := k) (z := z) (by
    refine h1.imp_right fun h1 => ?_
    rw [ha, show (2 : ℝ) ^ (23 + k) = 1 / 2 ^ 126 * 2 ^ (149 + k) by
      rw [show 149 + k = 126 + (23 + k) by omega, pow_add _ 126]; field_simp]
    exact mul_le_mul_of_nonneg_right h1 (by positivity)) (by
    rw [ha, show (2 : ℝ) ^ (276 + k) = 2 ^ 127 * 2 ^ (149 + k) by rw [← pow_add]; congr 1; omega]
    exact mul_lt_mul_of_pos_right h2 (by positivity))
  refine ⟨hf, ε, he, real_of_num ?_⟩
  have hp : (2 : ℝ) ^ k ≠ 0 := by positivity
  rw [hz, pow_add] at hr
  have : (num (Fp.round 32 k z) : ℝ) * 2 ^ k = (v * (1 + ε) * 2 ^ 149) * 2 ^ k := by rw [hr]; ring
  exact mul_right_cancel₀ hp this

theorem mul_rel {x y : BitVec 32} (fx : isFinite x = true) (fy : isFinite y = true) (h1 : 1 / 2 ^ 126 ≤ |real x * real y|)
    (h2 : |real x * real y| < 2 ^ 127) :
    isFinite (Fp.mul x y) = true ∧ ∃ ε : ℝ, |ε| ≤ ulp ∧ real (Fp.mul x y) = real x * real y * (1 + ε) := by
  obtain ⟨nx, ix⟩ := not_nan_of_finite fx
  obtain ⟨ny, iy⟩ := not_nan_of_finite fy
  have h0 : num x * num y ≠ 0 := by
    intro e
    have : real x * real y = 0 := by
      rcases Int.mul_eq_zero.1 e with e | e <;> rw [real_zero_iff.2 e] <;> simp
    rw [this, abs_zero] at h1
    exact absurd h1 (by norm_num)
  unfold Fp.mul
  simp only [nx, ny, ix, iy, Bool.or_self, Bool.false_eq_true, if_false, if_neg h0]
  refine round_real (k := 149) ?_ (Or.inr h1) h2
  push_cast
  rw [real_eq, real_eq, show (2 : ℝ) ^ 298 = 2 ^ 149 * 2 ^ 149 by rw [← pow_add]]
  ring

theorem add_rel {x y : BitVec 32} (fx : isFinite x = true) (fy : isFinite y = true) (h2 : |real x + real y| < 2 ^ 127) :
    isFinite (Fp.add x y) = true ∧ ∃ ε : ℝ, |ε| ≤ ulp ∧ real (Fp.add x y) = (real x + real y) * (1 + ε) := by
  obtain ⟨nx, ix⟩ := not_nan_of_finite fx
  obtain ⟨ny, iy⟩ := not_nan_of_finite fy
  unfold Fp.add
  simp only [nx, ny, ix, iy, Bool.or_self, Bool.false_eq_true, if_false]
  by_cases h0 : num x + num y = 0
  · rw [if_pos h0]
    refine ⟨?_, 0, by rw [abs_zero]; exact ulp_pos.le, ?_⟩
    · rw [isFinite_iff, mk_mag fw32 (by positivity)]; decide
    · have e1 : real (mk 32 (x.msb && y.msb) 0) = 0 := by
        rw [real_zero_iff, num_mk fw32 (by positivity), numMag_zero]; simp
      have e2 : real x + real y = 0 := by
        have : (num x : ℝ) + num y = 0 := by exact_mod_cast h0
        rw [real_eq, real_eq, ← add_mul] at this
        exact (mul_eq_zero.1 this).resolve_right (by positivity)
      rw [e1, e2, zero_mul]
  · rw [if_neg h0]
    refine round_real (k := 0) ?_ (Or.inl rfl) h2
    push_cast
    rw [real_eq, real_eq]
    ring

theorem real_neg (x : BitVec 32) : real (Fp.neg x) = -real x := by
  unfold real
  rw [num_neg fw32]
  push_cast
  ring

theorem sub_rel {x y : BitVec 32} (fx : isFinite x = true) (fy : isFinite y = true) (h2 : |real x - real y| < 2 ^ 127) :
    isFinite (Fp.sub x y) = true ∧ ∃ ε : ℝ, |ε| ≤ ulp ∧ real (Fp.sub x y) = (real x - real y) * (1 + ε) := by
  unfold Fp.sub
  have := add_rel fx ((neg_class fw32 y).2.2.trans fy) (by rw [real_neg]; simpa [sub_eq_add_neg] using h2)
  rw [real_neg] at this
  simpa [sub_eq_add_neg] using this

theorem fma_rel {x y z : BitVec 32} (fx : isFinite x = true) (fy : isFinite y = true) (fz : isFinite z = true)
    (h1 : 1 / 2 ^ 126 ≤ |real x * real y + real z|) (h2 : |real x * real y + real z| < 2 ^ 127) :
    isFinite (Fp.fma x y z) = true ∧ ∃ ε : ℝ, |ε| ≤ ulp ∧ real (Fp.fma x y z) = (real x * real y + real z) * (1 + ε) := by
  obtain ⟨nx, ix⟩ := not_nan_of_finite fx
  obtain ⟨ny, iy⟩ := not_nan_of_finite fy
  obtain ⟨nz, iz⟩ := not_nan_of_finite fz
  have hv : ((num x * num y + num z * 2 ^ unit 32 : Int) : ℝ) = (real x * real y + real z) * 2 ^ (149 + 149) := by
    push_cast
    rw [real_eq, real_eq, real_eq, show unit 32 = 149 from rfl, show (2 : ℝ) ^ 298 = 2 ^ 149 * 2 ^ 149 by rw [← pow_add]]
    ring
  have h0 : num x * num y + num z * 2 ^ unit 32 ≠ 0 := by
    intro e
    rw [e, Int.cast_zero] at hv
    have : real x * real y + real z = 0 := (mul_eq_zero.1 hv.symm).resolve_right (by positivity)
    rw [this, abs_zero] at h1
    exact absurd h1 (by norm_num)
  unfold Fp.fma
  simp only [nx, ny, nz, ix, iy, iz, Bool.or_self, Bool.false_eq_true, if_false, if_neg h0]
  exact round_real (k := 149) hv (Or.inr h1) h2

theorem nmsub_rel {x y z : BitVec 32} (fx : isFinite x = true) (fy : isFinite y = true) (fz : isFinite z = true)
    (h1 : 1 / 2 ^ 126 ≤ |real z - real x * real y|) (h2 : |real z - real x * real y| < 2 ^ 127) :
    isFinite (Hw.nmsub x y z) = true ∧ ∃ ε : ℝ, |ε| ≤ ulp ∧ real (Hw.nmsub x y z) = (real z - real x * real y) * (1 + ε) := by
  have e : |real x * real y + real (Fp.neg z)| = |real z - real x * real y| := by
    rw [real_neg, ← abs_neg]; congr 1; ring
  obtain ⟨hf, ε, he, hr⟩ := fma_rel fx fy ((neg_class fw32 z).2.2.trans fz) (by rwa [e]) (by rwa [e])
  unfold Hw.nmsub
  dsimp only
  rw [(not_nan_of_finite hf).1, if_neg (by decide)]
  refine ⟨(neg_class fw32 _).2.2.trans hf, ε, he, ?_⟩
  rw [real_neg, hr, real_neg]
  ring

/-- Two encodings of the same number. -/
theorem same_real {r s : BitVec 32} (h : SameUpToZero r s) : real r = real s ∧ (isFinite s = true → isFinite r = true) := by
  rcases h with rfl | ⟨h1, h2⟩
  · exact ⟨rfl, id⟩
  · refine ⟨?_, fun _ => ?_⟩
    · rw [real_zero_iff.2 (num_eq_zero.2 h1), real_zero_iff.2 (num_eq_zero.2 h2)]
    · rw [isFinite_iff, h1]; decide

theorem real_ofBits {x : BitVec 32} {z : Int} (h : num x = z * 2 ^ 149) : real x = z :=
  real_of_num (by rw [h]; push_cast; ring)

theorem real_1 : real f32_1 = 1 := by have := real_ofBits (x := f32_1) (z := 1) (by decide +kernel); simpa using this
theorem real_2 : real f32_2 = 2 := by have := real_ofBits (x := f32_2) (z := 2) (by decide +kernel); simpa using this
theorem real_3 : real f32_3 = 3 := by have := real_ofBits (x := f32_3) (z := 3) (by decide +kernel); simpa using this
theorem real_half : real f32_half = 1 / 2 := by
  have : num f32_half * 2 = 2 ^ 149 := by decide +kernel
  refine real_of_num ?_
  have : (num f32_half : ℝ) * 2 = 2 ^ 149 := by exact_mod_cast this
  linarith

end Spec.Fp

end Simdpp
