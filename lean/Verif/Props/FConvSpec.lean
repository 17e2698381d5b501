import Verif.Props.FpNearest
import Verif.Spec.Int

/-!
# C46, the specification side: rounding and exact conversions
-/

namespace Simdpp
open Spec Spec.Flt Spec.Fp

variable {w v : Nat}

namespace Spec.Fp

theorem infBits_odd (hw : FW w) : (infBits w - 1) % 2 = 1 ∧ 0 < infBits w := by
  have hw' : w = 32 ∨ w = 64 := hw
  rcases hw' with e | e <;> subst e <;> decide

theorem round_mag (hw : FW w) (k : Nat) (z : Int) : mag (round w k z) = rndMag w k z.natAbs :=
  mk_mag hw (Nat.lt_of_le_of_lt (rndMag_le _ _) (infBits_lt hw))

theorem round_msb (hw : FW w) (k : Nat) (z : Int) : (round w k z).msb = decide (z < 0) :=
  mk_msb hw (Nat.lt_of_le_of_lt (rndMag_le _ _) (infBits_lt hw))

theorem isFinite_iff {x : BitVec w} : isFinite x = true ↔ mag x < infBits w := by simp [isFinite]

/-- A rounded number that is finite: its significand and exponent. -/
theorem round_fin (hw : FW w) {k : Nat} {z : Int} (hf : isFinite (round w k z) = true) :
    mag (round w k z) = (max (len z.natAbs - prec w) k - k) * 2 ^ (prec w - 1) + rne z.natAbs (max (len z.natAbs - prec w) k) ∧
    numMag w (mag (round w k z)) * 2 ^ k = rne z.natAbs (max (len z.natAbs - prec w) k) * 2 ^ (max (len z.natAbs - prec w) k) := by
  obtain ⟨h1, h2⟩ := numMag_rndMag w k z.natAbs
  have h3 := isFinite_iff.1 hf
  rw [round_mag hw] at h3 ⊢
  have h4 : rndMag w k z.natAbs = (max (len z.natAbs - prec w) k - k) * 2 ^ (prec w - 1) + rne z.natAbs (max (len z.natAbs - prec w) k) := by
    omega
  exact ⟨h4, by rw [h4]; exact h2⟩

end Spec.Fp

/-- C46: the rounding used in the specification of every conversion and sum is IEEE 754 round-to-nearest-even: of all finite
numbers of the format none is nearer to `z / 2 ^ k` (in units of the least positive number), and when another one is equally near, the
result is the one with the even significand. -/
theorem C46_round_nearest (hw : w = 32 ∨ w = 64) (k : Nat) (z : Int) (hf : Fp.isFinite (Fp.round w k z) = true)
    (y : BitVec w) (hy : Fp.isFinite y = true) :
    |Fp.num (Fp.round w k z) * 2 ^ k - z| ≤ |Fp.num y * 2 ^ k - z| ∧
    (Fp.num y ≠ Fp.num (Fp.round w k z) → |Fp.num (Fp.round w k z) * 2 ^ k - z| = |Fp.num y * 2 ^ k - z| →
      (Fp.round w k z).toNat % 2 = 0) := by
  have hw' : FW w := hw
  obtain ⟨h1, h2⟩ := round_fin hw' hf
  obtain ⟨g1, g2⟩ := mag_near w k z.natAbs (mag y)
  obtain ⟨g0, -⟩ := mag_near w k z.natAbs 0
  have hev : rne z.natAbs (max (len z.natAbs - prec w) k) % 2 = 0 → (Fp.round w k z).toNat % 2 = 0 := by
    intro he
    rw [toNat_split hw', h1]
    have e1 : ∀ t : Nat, t * 2 ^ (prec w - 1) % 2 = 0 := fun t => by
      have : prec w - 1 = (prec w - 2) + 1 := by unfold prec; split_ifs <;> rfl
      rw [this, pow_succ, ← Nat.mul_assoc, Nat.mul_mod_left]
    have e2 := e1 (max (len z.natAbs - prec w) k - k)
    have e3 : (if (Fp.round w k z).msb = true then 2 ^ (w - 1) else 0) % 2 = 0 := by
      split_ifs
      · rcases hw with e | e <;> subst e <;> rfl
      · rfl
    omega
  have h2' : (numMag w (mag (Fp.round w k z)) : Int) * 2 ^ k =
      (rne z.natAbs (max (len z.natAbs - prec w) k) : Int) * 2 ^ (max (len z.natAbs - prec w) k) := by exact_mod_cast h2
  rw [numMag_zero, Nat.cast_zero, Int.zero_mul] at g0
  rw [← h2'] at g0 g1 g2
  have hr : Fp.num (Fp.round w k z) * 2 ^ k = if z < 0 then -((numMag w (mag (Fp.round w k z)) : Int) * 2 ^ k) else
      (numMag w (mag (Fp.round w k z)) : Int) * 2 ^ k := by
    unfold Fp.num
    rw [round_msb hw']
    by_cases hz : z < 0
    · simp [hz]
    · simp [hz]
  have hyn : Fp.num y * 2 ^ k = if y.msb then -((numMag w (mag y) : Int) * 2 ^ k) else (numMag w (mag y) : Int) * 2 ^ k := by
    unfold Fp.num
    split_ifs <;> ring
  have hne : Fp.num y ≠ Fp.num (Fp.round w k z) → Fp.num y * 2 ^ k ≠ Fp.num (Fp.round w k z) * 2 ^ k := by
    intro h e
    exact h (Int.eq_of_mul_eq_mul_right (by positivity) e)
  have p1 : 0 ≤ (numMag w (mag (Fp.round w k z)) : Int) * 2 ^ k := by positivity
  have p2 : 0 ≤ (numMag w (mag y) : Int) * 2 ^ k := by positivity
  have hz0 : z = 0 → (numMag w (mag (Fp.round w k z)) : Int) * 2 ^ k = 0 := by
    intro e; subst e
    have : (numMag w (mag (Fp.round w k 0)) : Int) * 2 ^ k ≤ 0 := by
      simp only [Int.natAbs_zero, Nat.cast_zero, sub_zero, abs_zero] at g0
      exact le_trans (le_abs_self _) g0
    omega
  rw [hr, hyn] at hne ⊢
  generalize (numMag w (mag (Fp.round w k z)) : Int) * 2 ^ k = A at *
  generalize (numMag w (mag y) : Int) * 2 ^ k = B at *
  have hzc : (z.natAbs : Int) = if z < 0 then -z else z := by split_ifs <;> omega
  rw [hzc] at g0 g1 g2
  constructor
  · clear g2 hne hev
    simp only [abs_eq_max_neg] at *
    split_ifs at * <;> omega
  · intro h3 h4
    have h5 := hne h3
    clear hne h3
    apply hev
    by_contra hodd
    have g3 : |A - (if z < 0 then -z else z)| = |B - (if z < 0 then -z else z)| → B = A := fun h => (g2 h).resolve_right hodd
    clear g2 hodd hev
    by_cases hab : B = A
    · subst hab
      clear g3
      simp only [abs_eq_max_neg] at *
      split_ifs at * <;> omega
    · have g4 : |A - (if z < 0 then -z else z)| ≠ |B - (if z < 0 then -z else z)| := fun h => hab (g3 h)
      clear g3
      simp only [abs_eq_max_neg] at *
      split_ifs at * <;> omega

/-- C46, overflow: the result is infinite exactly from the midpoint between the greatest finite number and the next power of two on;
its sign is that of `z`, and it is never a NaN. -/
theorem C46_round_overflow (hw : w = 32 ∨ w = 64) (k : Nat) (z : Int) :
    (Fp.isInf (Fp.round w k z) = true ↔
      (Fp.numMag w (Flt.infBits w) + Fp.numMag w (Flt.infBits w - 1)) * 2 ^ k ≤ 2 * z.natAbs) ∧
    (Fp.round w k z).msb = decide (z < 0) ∧ Flt.isNaN (Fp.round w k z) = false := by
  have hw' : FW w := hw
  have hle := rndMag_le (w := w) k z.natAbs
  refine ⟨?_, round_msb hw' k z, ?_⟩
  · obtain ⟨e1, e2⟩ := numMag_rndMag w k z.natAbs
    obtain ⟨a1, a2⟩ := mag_near w k z.natAbs (infBits w)
    obtain ⟨b1, b2⟩ := mag_near w k z.natAbs (infBits w - 1)
    obtain ⟨ho, hpos⟩ := infBits_odd hw'
    have hpar : rne z.natAbs (max (len z.natAbs - prec w) k) % 2 =
        ((max (len z.natAbs - prec w) k - k) * 2 ^ (prec w - 1) + rne z.natAbs (max (len z.natAbs - prec w) k)) % 2 := by
      have : prec w - 1 = (prec w - 2) + 1 := by unfold prec; split_ifs <;> rfl
      rw [this, pow_succ, ← Nat.mul_assoc]; omega
    have e2' : (numMag w ((max (len z.natAbs - prec w) k - k) * 2 ^ (prec w - 1) + rne z.natAbs (max (len z.natAbs - prec w) k)) : Int) * 2 ^ k =
      (rne z.natAbs (max (len z.natAbs - prec w) k) : Int) * 2 ^ (max (len z.natAbs - prec w) k) := by exact_mod_cast e2
    rw [← e2'] at a1 a2 b1 b2
    rw [hpar] at a2 b2
    have hi : Fp.isInf (Fp.round w k z) = true ↔ rndMag w k z.natAbs = infBits w := by
      unfold Fp.isInf; rw [round_mag hw']; exact decide_eq_true_iff
    rw [hi]
    generalize (max (len z.natAbs - prec w) k - k) * 2 ^ (prec w - 1) + rne z.natAbs (max (len z.natAbs - prec w) k) = M at *
    have hAB := numMag_lt (w := w) (show infBits w - 1 < infBits w by omega)
    have hAB' : (numMag w (infBits w - 1) : Int) * 2 ^ k < (numMag w (infBits w) : Int) * 2 ^ k :=
      Int.mul_lt_mul_of_pos_right (by exact_mod_cast hAB) (by positivity)
    have hgoal : (Fp.numMag w (Flt.infBits w) + Fp.numMag w (Flt.infBits w - 1)) * 2 ^ k ≤ 2 * z.natAbs ↔
        (numMag w (infBits w) : Int) * 2 ^ k + (numMag w (infBits w - 1) : Int) * 2 ^ k ≤ 2 * (z.natAbs : Int) := by
      rw [Nat.add_mul]
      exact_mod_cast Iff.rfl
    rw [hgoal, e1]
    rcases Nat.lt_or_ge M (infBits w) with hM | hM
    · rw [Nat.min_eq_right (by omega)]
      refine ⟨fun h => by omega, fun h => ?_⟩
      exfalso
      have hMB : (numMag w M : Int) * 2 ^ k ≤ (numMag w (infBits w - 1) : Int) * 2 ^ k := by
        refine Int.mul_le_mul_of_nonneg_right ?_ (by positivity)
        rcases Nat.lt_or_ge M (infBits w - 1) with g | g
        · exact_mod_cast Nat.le_of_lt (numMag_lt g)
        · rw [show M = infBits w - 1 by omega]
      have hMeq : (numMag w M : Int) * 2 ^ k = (numMag w (infBits w - 1) : Int) * 2 ^ k → M = infBits w - 1 := by
        intro e
        have := Int.eq_of_mul_eq_mul_right (by positivity) e
        exact numMag_inj (by exact_mod_cast this)
      clear b1 b2
      generalize (numMag w M : Int) * 2 ^ k = X at *
      generalize (numMag w (infBits w - 1) : Int) * 2 ^ k = B at *
      generalize (numMag w (infBits w) : Int) * 2 ^ k = A at *
      by_cases he : X = B
      · have := hMeq he
        have h3 : |X - (z.natAbs : Int)| ≠ |A - (z.natAbs : Int)| := by
          intro g
          rcases a2 g with g | g
          · omega
          · omega
        clear a2
        simp only [abs_eq_max_neg] at *
        omega
      · clear a2
        simp only [abs_eq_max_neg] at *
        omega
    · rw [Nat.min_eq_left hM]
      refine ⟨fun _ => ?_, fun _ => rfl⟩
      have hMA : (numMag w (infBits w) : Int) * 2 ^ k ≤ (numMag w M : Int) * 2 ^ k := by
        refine Int.mul_le_mul_of_nonneg_right ?_ (by positivity)
        rcases Nat.lt_or_ge (infBits w) M with g | g
        · exact_mod_cast Nat.le_of_lt (numMag_lt g)
        · rw [show M = infBits w by omega]
      clear a2 b2
      generalize (numMag w M : Int) * 2 ^ k = X at *
      generalize (numMag w (infBits w - 1) : Int) * 2 ^ k = B at *
      generalize (numMag w (infBits w) : Int) * 2 ^ k = A at *
      simp only [abs_eq_max_neg] at *
      omega
  · unfold isNaN; rw [round_mag hw']; exact decide_eq_false (by omega)

-- 2^24 + 1 lies between two floats, the tie goes to the even one; the greatest float and a half step overflow
example : Fp.isFinite (Fp.round 32 0 (16777217 * 2 ^ 149)) = true ∧ Fp.num (Fp.round 32 0 (16777217 * 2 ^ 149)) = 16777216 * 2 ^ 149 := by
  decide +kernel
example : Fp.isInf (Fp.round 32 0 (2 ^ 277 - 2 ^ 252)) = true ∧ Fp.isInf (Fp.round 32 0 (2 ^ 277 - 2 ^ 252 - 1)) = false := by decide +kernel

end Simdpp
