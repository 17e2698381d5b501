import Verif.Model.FRound
import Verif.Props.FConvInt

/-!
# C34: rounding to integers, one lane
-/

namespace Simdpp
open Spec Spec.Flt Spec.Fp

variable {w : Nat}

/-! ### Integers among the floating-point numbers -/

theorem big_integral {M : Nat} (h : 2 ^ (prec w - 1) * 2 ^ unit w ≤ numMag w M) : 2 ^ unit w ∣ numMag w M := by
  rcases mag_cases w M with h1 | ⟨q, f, hf, rfl⟩
  · rw [numMag_low h1] at h
    have : 2 ^ (prec w - 1) * 1 ≤ 2 ^ (prec w - 1) * 2 ^ unit w := Nat.mul_le_mul_left _ Nat.one_le_two_pow
    omega
  · rw [numMag_high hf] at h ⊢
    have hq : unit w ≤ q := by
      by_contra hc
      have h1 : (2 ^ (prec w - 1) + f) * 2 ^ q < (2 * 2 ^ (prec w - 1)) * 2 ^ q := Nat.mul_lt_mul_of_pos_right (by omega) (by positivity)
      have h2 : (2 * 2 ^ (prec w - 1)) * 2 ^ q = 2 ^ (prec w - 1) * 2 ^ (q + 1) := by rw [pow_succ]; ring
      have h3 : 2 ^ (prec w - 1) * 2 ^ (q + 1) ≤ 2 ^ (prec w - 1) * 2 ^ unit w := Nat.mul_le_mul_left _ (Nat.pow_le_pow_right (by decide) (by omega))
      omega
    exact Dvd.dvd.mul_left (Nat.pow_dvd_pow 2 hq) _

/-- The number below has the integer part one expects. -/
theorem pred_div {M : Nat} (hM : 0 < M) (hA : numMag w M ≤ 2 ^ prec w * 2 ^ unit w) :
    numMag w (M - 1) / 2 ^ unit w = (numMag w M - 1) / 2 ^ unit w := by
  have hU : 0 < 2 ^ unit w := by positivity
  have hA0 : 0 < numMag w M := numMag_pos.2 hM
  have hlt : numMag w (M - 1) < numMag w M := numMag_lt (by omega)
  have hk : (numMag w M - 1) / 2 ^ unit w < 2 ^ prec w := by
    rw [Nat.div_lt_iff_lt_mul hU]; omega
  obtain ⟨M', hM'⟩ := exists_mag (w := w) (q := unit w) hk
  have hd := Nat.div_mul_le_self (numMag w M - 1) (2 ^ unit w)
  have h1 : M' < M := numMag_lt_iff.1 (by rw [hM']; omega)
  have h2 : numMag w M' ≤ numMag w (M - 1) := by
    rcases Nat.lt_or_ge M' (M - 1) with g | g
    · exact Nat.le_of_lt (numMag_lt g)
    · have : M' = M - 1 := by omega
      rw [this]
  apply Nat.le_antisymm
  · exact Nat.div_le_div_right (by omega)
  · rw [Nat.le_div_iff_mul_le hU, ← hM']; exact h2

theorem num_pos_eq {x : BitVec w} (h : x.msb = false) : num x = numMag w (mag x) := by unfold num; rw [if_neg (by simp [h])]
theorem num_neg_eq {x : BitVec w} (h : x.msb = true) : num x = -(numMag w (mag x) : Int) := by unfold num; rw [if_pos h]

theorem trunc_pos {x : BitVec w} (h : x.msb = false) : truncInt x = ((numMag w (mag x) / 2 ^ unit w : Nat) : Int) := by
  unfold truncInt
  rw [num_pos_eq h, Int.tdiv_eq_ediv_of_nonneg (by omega)]
  push_cast; rfl
theorem trunc_neg {x : BitVec w} (h : x.msb = true) : truncInt x = -((numMag w (mag x) / 2 ^ unit w : Nat) : Int) := by
  unfold truncInt
  rw [num_neg_eq h, Int.neg_tdiv, Int.tdiv_eq_ediv_of_nonneg (by omega)]
  push_cast; rfl
theorem floor_pos {x : BitVec w} (h : x.msb = false) : floorInt x = ((numMag w (mag x) / 2 ^ unit w : Nat) : Int) := by
  unfold floorInt
  rw [num_pos_eq h]
  push_cast; rfl

theorem neg_ediv (A U : Nat) (hA : 0 < A) (hU : 0 < U) : (-(A : Int)) / U = -(((A - 1) / U : Nat) : Int) - 1 := by
  have hd := Nat.div_add_mod (A - 1) U
  have hr := Nat.mod_lt (A - 1) hU
  generalize (A - 1) / U = q at *
  generalize (A - 1) % U = r at *
  have hA' : (A : Int) = U * q + r + 1 := by omega
  have : -(A : Int) = ((U : Int) - r - 1) + (-q - 1) * U := by rw [hA']; ring
  rw [this, Int.add_mul_ediv_right _ _ (by omega), Int.ediv_eq_zero_of_lt (by omega) (by omega)]
  omega

theorem floor_neg {x : BitVec w} (h : x.msb = true) (h0 : 0 < mag x) :
    floorInt x = -(((numMag w (mag x) - 1) / 2 ^ unit w : Nat) : Int) - 1 := by
  unfold floorInt
  rw [num_neg_eq h]
  have := neg_ediv (numMag w (mag x)) (2 ^ unit w) (numMag_pos.2 h0) (by positivity)
  push_cast at this ⊢
  exact this
theorem ceil_neg {x : BitVec w} (h : x.msb = true) : ceilInt x = -((numMag w (mag x) / 2 ^ unit w : Nat) : Int) := by
  unfold ceilInt
  rw [num_neg_eq h, Int.neg_neg]
  push_cast; rfl
theorem ceil_pos {x : BitVec w} (h : x.msb = false) (h0 : 0 < mag x) :
    ceilInt x = (((numMag w (mag x) - 1) / 2 ^ unit w : Nat) : Int) + 1 := by
  unfold ceilInt
  rw [num_pos_eq h]
  have := neg_ediv (numMag w (mag x)) (2 ^ unit w) (numMag_pos.2 h0) (by positivity)
  push_cast at this ⊢
  rw [this]; ring

/-! ### A number that is an integer already -/

theorem all_of_integral {x : BitVec w} (h : 2 ^ unit w ∣ numMag w (mag x)) :
    num x = floorInt x * 2 ^ unit w ∧ num x = ceilInt x * 2 ^ unit w ∧ num x = truncInt x * 2 ^ unit w := by
  have hd : (2 ^ unit w : Int) ∣ num x := by
    have : ((2 ^ unit w : Nat) : Int) ∣ (numMag w (mag x) : Int) := Int.natCast_dvd_natCast.2 h
    push_cast at this
    unfold num
    split_ifs
    · exact (dvd_neg).2 this
    · exact this
  unfold floorInt ceilInt truncInt
  refine ⟨(Int.ediv_mul_cancel hd).symm, ?_, (Int.tdiv_mul_cancel hd).symm⟩
  rw [Int.neg_mul, Int.ediv_mul_cancel ((dvd_neg).2 hd), Int.neg_neg]

/-! ### The instructions -/

/-- What the three roundings have in common. -/
structure RndFn (f : BitVec w → Int) : Prop where
  integral : ∀ x, isFinite x = true → 2 ^ unit w ∣ numMag w (mag x) → num x = f x * 2 ^ unit w
  bound : ∀ x, (f x).natAbs ≤ numMag w (mag x) / 2 ^ unit w + 1

theorem rndFn_trunc : RndFn (truncInt (w := w)) := by
  refine ⟨fun x _ h => (all_of_integral h).2.2, fun x => ?_⟩
  cases h : x.msb
  · rw [trunc_pos h]; generalize numMag w (mag x) / 2 ^ unit w = q; omega
  · rw [trunc_neg h]; generalize numMag w (mag x) / 2 ^ unit w = q; omega

theorem div_pred_le (A U : Nat) : (A - 1) / U ≤ A / U := Nat.div_le_div_right (by omega)

theorem floor_zero {x : BitVec w} (h : mag x = 0) : floorInt x = 0 ∧ ceilInt x = 0 ∧ truncInt x = 0 := by
  have : num x = 0 := num_eq_zero.2 h
  unfold floorInt ceilInt truncInt
  rw [this]; simp

theorem rndFn_floor : RndFn (floorInt (w := w)) := by
  refine ⟨fun x _ h => (all_of_integral h).1, fun x => ?_⟩
  rcases Nat.eq_zero_or_pos (mag x) with g | g
  · rw [(floor_zero g).1]; simp
  have := div_pred_le (numMag w (mag x)) (2 ^ unit w)
  cases h : x.msb
  · rw [floor_pos h]; generalize numMag w (mag x) / 2 ^ unit w = q at *; generalize (numMag w (mag x) - 1) / 2 ^ unit w = q' at *; omega
  · rw [floor_neg h g]; generalize numMag w (mag x) / 2 ^ unit w = q at *; generalize (numMag w (mag x) - 1) / 2 ^ unit w = q' at *; omega

theorem rndFn_ceil : RndFn (ceilInt (w := w)) := by
  refine ⟨fun x _ h => (all_of_integral h).2.1, fun x => ?_⟩
  rcases Nat.eq_zero_or_pos (mag x) with g | g
  · rw [(floor_zero g).2.1]; simp
  have := div_pred_le (numMag w (mag x)) (2 ^ unit w)
  cases h : x.msb
  · rw [ceil_pos h g]; generalize numMag w (mag x) / 2 ^ unit w = q at *; generalize (numMag w (mag x) - 1) / 2 ^ unit w = q' at *; omega
  · rw [ceil_neg h]; generalize numMag w (mag x) / 2 ^ unit w = q at *; generalize (numMag w (mag x) - 1) / 2 ^ unit w = q' at *; omega

theorem ofInt_small (hw : FW w) {z : Int} (h : z.natAbs < 2 ^ prec w) : IsInt (ofInt w z) z := by
  rcases hw with e | e <;> subst e
  · exact ofInt_exact32 (s := z.natAbs) (q := 0) (by simp) h (by decide)
  · exact ofInt_small64 h

theorem IsRnd.self {f : BitVec w → Int} {x : BitVec w} (hf : RndFn f) (h : isFinite x = true → 2 ^ unit w ∣ numMag w (mag x)) : IsRnd f x x :=
  ⟨fun g => ⟨g, hf.integral x g (h g)⟩, fun _ => rfl, id⟩

theorem IsRnd.of_int {f : BitVec w → Int} {x r : BitVec w} (hx : isFinite x = true) (h : IsInt r (f x)) : IsRnd f x r := by
  have := not_nan_of_finite hx
  refine ⟨fun _ => h, fun g => ?_, fun g => ?_⟩
  · rw [this.2] at g; cases g
  · rw [this.1] at g; cases g

theorem rint_spec (hw : FW w) {f : BitVec w → Int} (hf : RndFn f) (x : BitVec w) : IsRnd f x (Hw.rint f x) := by
  unfold Hw.rint
  rcases finite_or x with g | g | g
  · rw [if_pos g]
    refine ⟨fun h => ?_, fun h => ?_, fun _ => nan_isNaN hw⟩
    · rw [(not_nan_of_finite h).1] at g; cases g
    · unfold isNaN isInf at *; simp at g h; omega
  · have gn : isNaN x = false := by unfold isNaN isInf at *; simp at *; omega
    rw [gn, if_neg (by decide), if_pos g]
    refine ⟨fun h => ?_, fun _ => rfl, fun h => ?_⟩
    · rw [(not_nan_of_finite h).2] at g; cases g
    · rw [gn] at h; cases h
  · obtain ⟨g1, g2⟩ := not_nan_of_finite g
    rw [g1, g2, if_neg (by decide), if_neg (by decide)]
    refine IsRnd.of_int g ?_
    split_ifs with h0
    · refine ⟨(finite_zero hw _).1, ?_⟩
      rw [(finite_zero hw _).2, h0]; simp
    · by_cases hb : 2 ^ (prec w - 1) * 2 ^ unit w ≤ numMag w (mag x)
      · have hi : IsInt x (f x) := ⟨g, hf.integral x g (big_integral hb)⟩
        rw [← isInt_inj hw hi h0]; exact hi
      · refine ofInt_small hw ?_
        have h1 := hf.bound x
        have h2 : numMag w (mag x) / 2 ^ unit w < 2 ^ (prec w - 1) := by
          rw [Nat.div_lt_iff_lt_mul (by positivity)]; omega
        have h3 : 2 ^ prec w = 2 * 2 ^ (prec w - 1) := by rw [← prec_pos w, pow_succ, Nat.add_sub_cancel]; ring
        omega

/-! ### Comparisons of magnitudes -/

theorem fabs_eq_mk (hw : FW w) (x : BitVec w) : Hw.fabs x = mk w false (mag x) := by
  unfold Hw.fabs
  apply BitVec.eq_of_toNat_eq
  rw [mk_toNat hw (mag_lt hw x), BitVec.toNat_and, BitVec.toNat_ofNat]
  have : (2 ^ (w - 1) - 1) % 2 ^ w = 2 ^ (w - 1) - 1 := by
    apply Nat.mod_eq_of_lt
    rcases hw with e | e <;> subst e <;> decide
  rw [this, Nat.and_two_pow_sub_one_eq_mod]
  unfold mag; simp

theorem fabs_cmp (hw : FW w) (x : BitVec w) {K : Nat} (hK : K < infBits w) :
    Flt.fle (Hw.fabs x) (mk w false K) = decide (mag x ≤ K) ∧ Flt.flt (Hw.fabs x) (mk w false K) = decide (mag x < K) := by
  have hb := infBits_lt hw
  have e := fabs_eq_mk hw x
  have m1 : mag (Hw.fabs x) = mag x := by rw [e, mk_mag hw (mag_lt hw x)]
  have s1 : (Hw.fabs x).msb = false := by rw [e, mk_msb hw (mag_lt hw x)]
  have m2 : mag (mk w false K) = K := mk_mag hw (by omega)
  have s2 : (mk w false K).msb = false := mk_msb hw (by omega)
  have nk : isNaN (mk w false K) = false := by unfold isNaN; rw [m2]; exact decide_eq_false (by omega)
  have nx : isNaN (Hw.fabs x) = isNaN x := by unfold isNaN; rw [m1]
  unfold Flt.fle Flt.flt Flt.ordered Flt.key
  rw [nk, nx, s1, s2, m1, m2]
  simp only [Bool.not_false, Bool.and_true, Bool.false_eq_true, if_false]
  unfold isNaN
  constructor
  · by_cases g : mag x ≤ K
    · rw [decide_eq_true g, decide_eq_false (by omega)]; simp [g]
    · rw [decide_eq_false g]; simp; omega
  · by_cases g : mag x < K
    · rw [decide_eq_true g, decide_eq_false (by omega)]; simp [g]
    · rw [decide_eq_false g]; simp; omega

theorem fabs_gt_zero (hw : FW w) (x : BitVec w) (hx : isNaN x = false) : Flt.fgt (Hw.fabs x) 0 = decide (0 < mag x) := by
  have e := fabs_eq_mk hw x
  have m1 : mag (Hw.fabs x) = mag x := by rw [e, mk_mag hw (mag_lt hw x)]
  have s1 : (Hw.fabs x).msb = false := by rw [e, mk_msb hw (mag_lt hw x)]
  have nx : isNaN (Hw.fabs x) = isNaN x := by unfold isNaN; rw [m1]
  have hz : isNaN (0 : BitVec w) = false ∧ (0 : BitVec w).msb = false ∧ mag (0 : BitVec w) = 0 := by
    rcases hw with e | e <;> subst e <;> decide
  unfold Flt.fgt Flt.flt Flt.ordered Flt.key
  rw [nx, hx, hz.1, hz.2.1, hz.2.2, s1, m1]
  simp

end Simdpp
