import Verif.Spec.FpReal
import Verif.Props.FConvSpec
import Mathlib.Data.Real.Sqrt
import Mathlib.Tactic.Linarith
import Mathlib.Tactic.Rify
import Mathlib.Tactic.FieldSimp

/-!
# The specified quotient and square root are the nearest numbers
-/

namespace Simdpp
open Spec Spec.Fp Spec.Flt

namespace Spec.Fp
variable {w : Nat}

/-- `z` stands for the exact `v`: it is `v`, or an odd integer less than one away from it. -/
def Sticky (v : ℝ) (z : Int) : Prop := v = z ∨ (z % 2 = 1 ∧ z - 1 < v ∧ v < z + 1)

/-- Among multiples of four the one nearest to `z` is the one nearest to `v`, and ties at `v` are ties at `z`. -/
theorem sticky_near {v : ℝ} {z A B : Int} (h : Sticky v z) (hn : |A * 4 - z| ≤ |B * 4 - z|) :
    |(A : ℝ) * 4 - v| ≤ |(B : ℝ) * 4 - v| ∧ (A ≠ B → |(A : ℝ) * 4 - v| = |(B : ℝ) * 4 - v| → |A * 4 - z| = |B * 4 - z|) := by
  rcases h with h | ⟨ho, h1, h2⟩
  · subst h
    refine ⟨by exact_mod_cast hn, fun _ e => by exact_mod_cast e⟩
  · have c1 : A * 4 ≤ z - 1 ∨ z + 1 ≤ A * 4 := by omega
    have c2 : B * 4 ≤ z - 1 ∨ z + 1 ≤ B * 4 := by omega
    rcases c1 with c1 | c1 <;> rcases c2 with c2 | c2
    all_goals
      have c1' := c1
      have c2' := c2
      rify at c1' c2'
    · rw [abs_of_neg (by omega), abs_of_neg (by omega)] at hn
      have hAB : B ≤ A := by omega
      rify at hAB
      rw [abs_of_neg (by linarith), abs_of_neg (by linarith)]
      exact ⟨by linarith, fun hne e => absurd (by rify; linarith) hne⟩
    · rw [abs_of_neg (by omega), abs_of_pos (by omega)] at hn
      have hAB : 2 * z + 2 ≤ A * 4 + B * 4 := by omega
      rify at hAB
      rw [abs_of_neg (by linarith), abs_of_pos (by linarith)]
      exact ⟨by linarith, fun hne e => by linarith⟩
    · rw [abs_of_pos (by omega), abs_of_neg (by omega)] at hn
      have hAB : A * 4 + B * 4 ≤ 2 * z - 2 := by omega
      rify at hAB
      rw [abs_of_pos (by linarith), abs_of_neg (by linarith)]
      exact ⟨by linarith, fun hne e => by linarith⟩
    · rw [abs_of_pos (by omega), abs_of_pos (by omega)] at hn
      have hAB : A ≤ B := by omega
      rify at hAB
      rw [abs_of_pos (by linarith), abs_of_pos (by linarith)]
      exact ⟨by linarith, fun hne e => absurd (by rify; linarith) hne⟩

theorem quarters_sticky {a b : Nat} (hb : 0 < b) : Sticky (4 * (a : ℝ) / b) (quarters a b) := by
  have hd := Nat.div_add_mod (2 * a) b
  have hm := Nat.mod_lt (2 * a) hb
  have hb' : (0 : ℝ) < b := by exact_mod_cast hb
  unfold quarters
  by_cases h0 : 2 * a % b = 0
  · left
    rw [if_pos h0, div_eq_iff (ne_of_gt hb')]
    rw [h0, add_zero] at hd
    have : (b : ℝ) * ((2 * a / b : Nat) : ℝ) = 2 * a := by exact_mod_cast hd
    generalize (2 * a / b : Nat) = d at *
    push_cast
    linarith
  · right
    rw [if_neg h0]
    have e : (b : ℝ) * ((2 * a / b : Nat) : ℝ) + ((2 * a % b : Nat) : ℝ) = 2 * a := by exact_mod_cast hd
    have e1 : (0 : ℝ) < ((2 * a % b : Nat) : ℝ) := by exact_mod_cast Nat.pos_of_ne_zero h0
    have e2 : ((2 * a % b : Nat) : ℝ) < b := by exact_mod_cast hm
    generalize (2 * a / b : Nat) = d at *
    generalize (2 * a % b : Nat) = t at *
    refine ⟨by omega, ?_, ?_⟩
    · rw [lt_div_iff₀ hb']; push_cast; linarith
    · rw [div_lt_iff₀ hb']; push_cast; linarith

theorem rootQuarters_sticky (a : Nat) : Sticky (4 * Real.sqrt a) (rootQuarters a) := by
  have h1 := Nat.sqrt_le (4 * a)
  have h2 := Nat.lt_succ_sqrt (4 * a)
  have e4 : Real.sqrt ((4 * a : Nat) : ℝ) = 2 * Real.sqrt a := by
    push_cast
    rw [show (4 : ℝ) * a = 2 ^ 2 * a by norm_num, Real.sqrt_mul (by positivity), Real.sqrt_sq (by norm_num)]
  have h3 : 4 * Real.sqrt a = 2 * Real.sqrt ((4 * a : Nat) : ℝ) := by rw [e4]; ring
  rw [h3]
  unfold rootQuarters
  generalize 4 * a = N at *
  by_cases h0 : Nat.sqrt N * Nat.sqrt N = N
  · left
    rw [if_pos h0]
    have : Real.sqrt (N : ℝ) = Nat.sqrt N := by
      rw [Real.sqrt_eq_iff_mul_self_eq (by positivity) (by positivity)]
      exact_mod_cast h0.symm
    rw [this]; push_cast; ring
  · right
    rw [if_neg h0]
    have h1' : Nat.sqrt N * Nat.sqrt N < N := by omega
    have g1 : (Nat.sqrt N : ℝ) < Real.sqrt N := by
      apply Real.lt_sqrt_of_sq_lt
      rw [sq]; exact_mod_cast h1'
    have g2 : Real.sqrt N < (Nat.sqrt N : ℝ) + 1 := by
      rw [Real.sqrt_lt' (by positivity), sq]
      exact_mod_cast h2
    refine ⟨by omega, ?_, ?_⟩ <;> · push_cast; linarith

theorem Sticky.neg {v : ℝ} {z : Int} (h : Sticky v z) : Sticky (-v) (-z) := by
  rcases h with h | ⟨h, h1, h2⟩
  · left; rw [h]; push_cast; rfl
  · right; refine ⟨by omega, ?_, ?_⟩ <;> · push_cast; linarith

theorem quarters_pos {a b : Nat} (ha : 0 < a) : 0 < quarters a b := by
  unfold quarters
  split_ifs with h
  · have hd := Nat.div_add_mod (2 * a) b
    have : 2 * a / b ≠ 0 := fun e => by rw [e, h] at hd; omega
    omega
  · omega

/-- The nearest number to a real, from the nearest number to the quarters that stand for it. -/
theorem nearest_of_sticky (hw : FW w) {v : ℝ} {z : Int} (h : Sticky (4 * v * 2 ^ unit w) z) (hf : isFinite (round w 2 z) = true)
    (y : BitVec w) (hy : isFinite y = true) :
    |real (round w 2 z) - v| ≤ |real y - v| ∧
    (real y ≠ real (round w 2 z) → |real (round w 2 z) - v| = |real y - v| → (round w 2 z).toNat % 2 = 0) := by
  obtain ⟨n1, n2⟩ := C46_round_nearest hw 2 z hf y hy
  obtain ⟨s1, s2⟩ := sticky_near h (A := num (round w 2 z)) (B := num y) (by simpa using n1)
  have hp : (0 : ℝ) < 4 * 2 ^ unit w := by positivity
  have hp' : (2 : ℝ) ^ unit w ≠ 0 := by positivity
  have key : ∀ t : BitVec w, |real t - v| = |(num t : ℝ) * 4 - 4 * v * 2 ^ unit w| / (4 * 2 ^ unit w) := by
    intro t
    conv_rhs => rw [← abs_of_pos hp, ← abs_div]
    congr 1
    unfold real
    field_simp
  refine ⟨?_, fun hne e => ?_⟩
  · rw [key, key]
    exact div_le_div_of_nonneg_right s1 hp.le
  · have hne' : num y ≠ num (round w 2 z) := fun e => hne (by unfold real; rw [e])
    rw [key, key, div_left_inj' (ne_of_gt hp)] at e
    exact n2 hne' (by simpa using s2 hne'.symm e)

end Spec.Fp

variable {w : Nat}

/-- The quotient of two finite numbers, the dividend not zero, is the rounding of an integer standing for it. -/
theorem div_sticky (hw' : FW w) {x y : BitVec w} (fx : Fp.isFinite x = true) (fy : Fp.isFinite y = true) (hy0 : num y ≠ 0) (hx0 : num x ≠ 0) :
    ∃ z, Sticky (4 * (real x / real y) * 2 ^ unit w) z ∧ Fp.div x y = Fp.round w 2 z := by
  obtain ⟨nx, ix⟩ := not_nan_of_finite fx
  obtain ⟨ny, iy⟩ := not_nan_of_finite fy
  have hp : (2 : ℝ) ^ unit w ≠ 0 := by positivity
  have hy0' : 0 < numMag w (mag y) := by
    rw [← num_natAbs]; omega
  unfold Fp.div
  simp only [nx, ny, ix, iy, Bool.or_self, Bool.false_eq_true, if_false, if_neg hy0]
  have hx0' : 0 < numMag w (mag x) := by rw [← num_natAbs]; omega
  have hst := quarters_sticky (a := numMag w (mag x) * 2 ^ unit w) hy0'
  have hqp := quarters_pos (a := numMag w (mag x) * 2 ^ unit w) (b := numMag w (mag y)) (by positivity)
  generalize hq : quarters (numMag w (mag x) * 2 ^ unit w) (numMag w (mag y)) = q at *
  have hyr : (numMag w (mag y) : ℝ) ≠ 0 := by exact_mod_cast hy0'.ne'
  have hnx : (num x : ℝ) = if x.msb then -(numMag w (mag x) : ℝ) else numMag w (mag x) := by
    unfold num; split_ifs <;> push_cast <;> rfl
  have hny : (num y : ℝ) = if y.msb then -(numMag w (mag y) : ℝ) else numMag w (mag y) := by
    unfold num; split_ifs <;> push_cast <;> rfl
  have hv : Sticky (4 * (real x / real y) * 2 ^ unit w) (if (x.msb != y.msb) then -(q : Int) else q) := by
    have e : 4 * (real x / real y) * 2 ^ unit w =
        if (x.msb != y.msb) then -(4 * ((numMag w (mag x) * 2 ^ unit w : Nat) : ℝ) / (numMag w (mag y) : ℝ))
        else 4 * ((numMag w (mag x) * 2 ^ unit w : Nat) : ℝ) / (numMag w (mag y) : ℝ) := by
      unfold real
      rw [hnx, hny]
      cases x.msb <;> cases y.msb <;> simp <;> field_simp
    rw [e]
    split_ifs
    · exact hst.neg
    · exact hst
  have er : mk w (x.msb != y.msb) (rndMag w 2 q) = Fp.round w 2 (if (x.msb != y.msb) then -(q : Int) else q) := by
    unfold Fp.round
    have e1 : decide (-(q : Int) < 0) = true := decide_eq_true (by omega)
    have e2 : decide ((q : Int) < 0) = false := decide_eq_false (by omega)
    cases (x.msb != y.msb)
    · rw [if_neg (by decide), e2]; rfl
    · rw [if_pos rfl, e1, Int.natAbs_neg]; rfl
  exact ⟨_, hv, er⟩

/-- The root of a positive number is the rounding of an integer standing for it. -/
theorem sqrt_sticky {x : BitVec w} (fx : Fp.isFinite x = true) (h0 : 0 < Fp.real x) :
    ∃ z, Sticky (4 * Real.sqrt (real x) * 2 ^ unit w) z ∧ Fp.sqrt x = Fp.round w 2 z := by
  obtain ⟨nx, ix⟩ := not_nan_of_finite fx
  have hp : (0 : ℝ) < (2 : ℝ) ^ unit w := by positivity
  have hnx : 0 < num x := by
    by_contra hc
    have : (num x : ℝ) ≤ 0 := by exact_mod_cast not_lt.1 hc
    have : real x ≤ 0 := div_nonpos_of_nonpos_of_nonneg this hp.le
    linarith
  have hs : x.msb = false := by
    cases e : x.msb
    · rfl
    · have := num_nonpos_of e; omega
  have hm : num x = numMag w (mag x) := by unfold num; rw [hs]; rfl
  unfold Fp.sqrt
  simp only [nx, ix, hs, Bool.false_eq_true, if_false, if_neg hnx.ne']
  have er : mk w false (rndMag w 2 (rootQuarters (numMag w (mag x) * 2 ^ unit w))) =
      Fp.round w 2 (rootQuarters (numMag w (mag x) * 2 ^ unit w) : Nat) := by
    unfold Fp.round
    rw [decide_eq_false (by omega : ¬ ((rootQuarters (numMag w (mag x) * 2 ^ unit w) : Nat) : Int) < 0)]; rfl
  refine ⟨_, ?_, er⟩
  have hst := rootQuarters_sticky (numMag w (mag x) * 2 ^ unit w)
  have e : Real.sqrt ((numMag w (mag x) * 2 ^ unit w : Nat) : ℝ) = Real.sqrt (real x) * 2 ^ unit w := by
    have : ((numMag w (mag x) * 2 ^ unit w : Nat) : ℝ) = real x * (2 ^ unit w) ^ 2 := by
      unfold real
      rw [hm]
      push_cast
      field_simp
    rw [this, Real.sqrt_mul h0.le, Real.sqrt_sq hp.le]
  rw [e] at hst
  rwa [mul_assoc]

/-- C52: the specified quotient of two finite numbers is the number nearest to the exact quotient, ties to the even significand. -/
theorem C52_div_nearest (hw : w = 32 ∨ w = 64) {x y : BitVec w} (fx : Fp.isFinite x = true) (fy : Fp.isFinite y = true)
    (h0 : Fp.real y ≠ 0) (hf : Fp.isFinite (Fp.div x y) = true) (z : BitVec w) (hz : Fp.isFinite z = true) :
    |Fp.real (Fp.div x y) - Fp.real x / Fp.real y| ≤ |Fp.real z - Fp.real x / Fp.real y| ∧
    (Fp.real z ≠ Fp.real (Fp.div x y) → |Fp.real (Fp.div x y) - Fp.real x / Fp.real y| = |Fp.real z - Fp.real x / Fp.real y| →
      (Fp.div x y).toNat % 2 = 0) := by
  have hw' : FW w := hw
  obtain ⟨nx, ix⟩ := not_nan_of_finite fx
  obtain ⟨ny, iy⟩ := not_nan_of_finite fy
  have hp : (2 : ℝ) ^ unit w ≠ 0 := by positivity
  have hy0 : num y ≠ 0 := fun e => h0 (by unfold real; rw [e]; simp)
  have hy0' : 0 < numMag w (mag y) := by
    rw [← num_natAbs]; omega
  unfold Fp.div at hf ⊢
  simp only [nx, ny, ix, iy, Bool.or_self, Bool.false_eq_true, if_false, if_neg hy0] at hf ⊢
  by_cases hx0 : num x = 0
  · have hm : mag x = 0 := num_eq_zero.1 hx0
    have hq : rndMag w 2 (quarters (numMag w (mag x) * 2 ^ unit w) (numMag w (mag y))) = 0 := by
      rw [hm, numMag_zero, Nat.zero_mul]
      have : quarters 0 (numMag w (mag y)) = 0 := by simp [quarters]
      rw [this]
      rcases hw with e | e <;> subst e <;> decide
    rw [hq]
    have e1 : real x = 0 := by unfold real; rw [hx0]; simp
    have e2 : ∀ s, real (mk w s 0) = 0 := fun s => by
      unfold real; rw [num_mk hw' (by positivity), numMag_zero]; simp
    rw [e1, e2, zero_div, sub_self, abs_zero]
    refine ⟨abs_nonneg _, fun hne e => ?_⟩
    rw [sub_zero] at e
    exact absurd (abs_eq_zero.1 e.symm) hne
  · obtain ⟨z', hv, er⟩ := div_sticky hw' fx fy hy0 hx0
    unfold Fp.div at er
    simp only [nx, ny, ix, iy, Bool.or_self, Bool.false_eq_true, if_false, if_neg hy0] at er
    rw [er] at hf ⊢
    exact nearest_of_sticky hw' hv hf z hz

/-- C52: the specified square root of a finite number is the number nearest to the exact root, ties to the even significand. -/
theorem C52_sqrt_nearest (hw : w = 32 ∨ w = 64) {x : BitVec w} (fx : Fp.isFinite x = true) (h0 : 0 < Fp.real x)
    (hf : Fp.isFinite (Fp.sqrt x) = true) (z : BitVec w) (hz : Fp.isFinite z = true) :
    |Fp.real (Fp.sqrt x) - Real.sqrt (Fp.real x)| ≤ |Fp.real z - Real.sqrt (Fp.real x)| ∧
    (Fp.real z ≠ Fp.real (Fp.sqrt x) → |Fp.real (Fp.sqrt x) - Real.sqrt (Fp.real x)| = |Fp.real z - Real.sqrt (Fp.real x)| →
      (Fp.sqrt x).toNat % 2 = 0) := by
  obtain ⟨z', hv, er⟩ := sqrt_sticky fx h0
  rw [er] at hf ⊢
  exact nearest_of_sticky hw hv hf z hz

end Simdpp
