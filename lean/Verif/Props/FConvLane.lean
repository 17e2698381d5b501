import Verif.Props.FConvSpec
import Verif.Model.FConv
import Verif.Props.FltOps

/-!
# Lanes of the conversions between integers and floating point
-/

namespace Simdpp
open Spec Spec.Flt Spec.Fp

variable {w v n N : Nat}

namespace Spec.Fp

/-- `x` is exactly the integer `z`. -/
def IsInt (x : BitVec w) (z : Int) : Prop := isFinite x = true ∧ num x = z * 2 ^ unit w

theorem ofInt_exact (hw : FW w) {z : Int} {s q : Nat} (hz : z.natAbs = s * 2 ^ q) (h : s < 2 ^ prec w)
    (hb : s * 2 ^ (q + unit w) < numMag w (infBits w)) : IsInt (ofInt w z) z := by
  have := num_round hw (z := z * 2 ^ unit w) (s := s) (q := q + unit w)
    (by rw [Int.natAbs_mul, hz, Int.natAbs_pow, pow_add]; simp; ring) h hb
  exact ⟨this.2, this.1⟩

theorem ofInt_small64 {z : Int} (h : z.natAbs < 2 ^ 53) : IsInt (ofInt 64 z) z :=
  ofInt_exact fw64 (s := z.natAbs) (q := 0) (by simp) h (by
    rw [numMag_inf64]
    calc z.natAbs * 2 ^ (0 + unit 64) < 2 ^ 53 * 2 ^ (0 + unit 64) := Nat.mul_lt_mul_of_pos_right h (by positivity)
      _ ≤ 2 ^ 2098 := by rw [← pow_add]; exact Nat.pow_le_pow_right (by decide) (by decide))

/-- Integers of at most 24 digits, times a power of two, are exact in single precision. -/
theorem ofInt_exact32 {z : Int} {s q : Nat} (hz : z.natAbs = s * 2 ^ q) (h : s < 2 ^ 24) (hq : q ≤ 104) : IsInt (ofInt 32 z) z :=
  ofInt_exact fw32 hz h (by
    rw [numMag_inf32]
    calc s * 2 ^ (q + unit 32) < 2 ^ 24 * 2 ^ (q + unit 32) := Nat.mul_lt_mul_of_pos_right h (by positivity)
      _ ≤ 2 ^ 277 := by rw [← pow_add]; exact Nat.pow_le_pow_right (by decide) (by have : unit 32 = 149 := rfl; omega))

/-- The sum of two integers is their sum, rounded once. -/
theorem add_isInt {x y : BitVec w} {a b : Int} (hx : IsInt x a) (hy : IsInt y b) (h0 : a + b ≠ 0) : add x y = ofInt w (a + b) := by
  obtain ⟨fx, ex⟩ := hx
  obtain ⟨fy, ey⟩ := hy
  obtain ⟨nx, ix⟩ := not_nan_of_finite fx
  obtain ⟨ny, iy⟩ := not_nan_of_finite fy
  unfold add ofInt
  simp only [nx, ny, ix, iy, Bool.or_self, Bool.false_eq_true, if_false]
  rw [ex, ey, ← Int.add_mul, if_neg (by
    intro h
    rcases Int.mul_eq_zero.1 h with h | h
    · exact h0 h
    · have : (0 : Int) < 2 ^ unit w := by positivity
      omega)]

theorem isInt_inj (hw : FW w) {x : BitVec w} {z : Int} (h : IsInt x z) (h0 : z ≠ 0) : x = ofInt w z := by
  obtain ⟨fx, ex⟩ := h
  unfold ofInt
  rw [← ex, round_num hw fx]
  rw [ex]
  intro h
  rcases Int.mul_eq_zero.1 h with h | h
  · exact h0 h
  · have : (0 : Int) < 2 ^ unit w := by positivity
    omega

theorem truncInt_isInt {x : BitVec w} {z : Int} (h : IsInt x z) : truncInt x = z := by
  unfold truncInt; rw [h.2, Int.mul_tdiv_cancel _ (by have : (0 : Int) < 2 ^ unit w := by positivity
                                                      omega)]

theorem finite_zero (hw : FW w) (s : Bool) : isFinite (mk w s 0) = true ∧ num (mk w s 0) = 0 := by
  have h1 : 0 < 2 ^ (w - 1) := by positivity
  refine ⟨?_, ?_⟩
  · unfold isFinite; rw [mk_mag hw h1]; rcases hw with e | e <;> subst e <;> decide
  · rw [num_mk hw h1, numMag_zero]; simp

/-- Adding a zero does not change the value. -/
theorem add_zero' (hw : FW w) {x y : BitVec w} (fx : isFinite x = true) (fy : isFinite y = true) (h0 : num y = 0) :
    isFinite (add x y) = true ∧ num (add x y) = num x := by
  obtain ⟨nx, ix⟩ := not_nan_of_finite fx
  obtain ⟨ny, iy⟩ := not_nan_of_finite fy
  unfold add
  simp only [nx, ny, ix, iy, Bool.or_self, Bool.false_eq_true, if_false, h0, Int.add_zero]
  by_cases h : num x = 0
  · rw [if_pos h, h]; exact finite_zero hw _
  · rw [if_neg h, round_num hw fx h]; exact ⟨fx, rfl⟩

/-- A magnitude is a significand of at most `prec` digits times a power of two; the exponent is bounded for finite numbers. -/
theorem numMag_split (w M : Nat) : ∃ s q, numMag w M = s * 2 ^ q ∧ s < 2 ^ prec w ∧ (q ≠ 0 → 2 ^ (prec w - 1) ≤ s) := by
  have hp : 2 ^ prec w = 2 ^ (prec w - 1) + 2 ^ (prec w - 1) := by rw [← prec_pos w, pow_succ]; simp; omega
  rcases mag_cases w M with h | ⟨q, f, hf, rfl⟩
  · exact ⟨M, 0, by rw [numMag_low h]; simp, by omega, fun h => absurd rfl h⟩
  · exact ⟨_, q, numMag_high hf, by omega, fun _ => by omega⟩

/-- `float` to `double` is exact. -/
theorem conv64_exact {x : BitVec 32} (hx : isFinite x = true) :
    isFinite (conv 64 x) = true ∧ num (conv 64 x) = num x * 2 ^ 925 := by
  obtain ⟨nx, ix⟩ := not_nan_of_finite hx
  unfold conv
  simp only [nx, ix, Bool.false_eq_true, if_false]
  by_cases h0 : num x = 0
  · rw [if_pos h0, h0]; exact ⟨(finite_zero fw64 _).1, by rw [(finite_zero fw64 _).2]; simp⟩
  · rw [if_neg h0, if_pos (by decide)]
    obtain ⟨s, q, e, hs, -⟩ := numMag_split 32 (mag x)
    have hlt : numMag 32 (mag x) < 2 ^ 277 := by rw [← numMag_inf32]; exact numMag_lt (isFinite_iff.1 hx)
    have e925 : unit 64 - unit 32 = 925 := rfl
    rw [e925]
    have := num_round fw64 (z := num x * 2 ^ 925) (s := s) (q := q + 925)
      (by rw [Int.natAbs_mul, num_natAbs, e, Int.natAbs_pow, pow_add]; rw [show (2 : Int).natAbs = 2 from rfl]; ring)
      (Nat.lt_of_lt_of_le hs (by decide)) (by
        rw [numMag_inf64, pow_add, ← Nat.mul_assoc, ← e]
        calc numMag 32 (mag x) * 2 ^ 925 < 2 ^ 277 * 2 ^ 925 := Nat.mul_lt_mul_of_pos_right hlt (by positivity)
          _ ≤ 2 ^ 2098 := by rw [← pow_add]; exact Nat.pow_le_pow_right (by decide) (by decide))
    exact ⟨this.2, this.1⟩

theorem truncInt_conv {x : BitVec 32} (hx : isFinite x = true) : truncInt (conv 64 x) = truncInt x := by
  unfold truncInt
  rw [(conv64_exact hx).2]
  have e : (2 : Int) ^ unit 64 = 2 ^ unit 32 * 2 ^ 925 := by rw [← pow_add]; rfl
  rw [e, Int.mul_tdiv_mul_of_pos_left _ _ (by positivity)]

end Spec.Fp

/-! ## Integers to floating point -/

theorem val_natAbs (sg : Bool) (x : BitVec 32) : (val sg x).natAbs < 2 ^ 32 ∧ (sg = true → (val sg x).natAbs ≤ 2 ^ 31) := by
  have := x.isLt
  cases sg
  · unfold val; simp; omega
  · refine ⟨?_, fun _ => ?_⟩ <;>
    · unfold val; simp
      have h1 := BitVec.toInt_lt (x := x)
      have h2 := BitVec.le_toInt (x := x)
      simp at h1 h2
      omega

theorem i2f64_exact (sg : Bool) (x : BitVec 32) : IsInt (Hw.i2f sg 64 x) (val sg x) :=
  ofInt_small64 (by have := (val_natAbs sg x).1; omega)

theorem val_unsigned (x : BitVec 32) : val false x = if val true x < 0 then val true x + 2 ^ 32 else val true x := by
  unfold val
  simp only [Bool.false_eq_true, if_false, if_true]
  rw [BitVec.toInt_eq_toNat_cond]
  have := x.isLt
  split_ifs <;> omega

/-- 2^32 -/
theorem two32_64 : IsInt (0x41f0000000000000#64) (2 ^ 32) := by
  constructor
  · decide
  · decide +kernel

theorem two32_32 : IsInt (0x4f800000#32) (2 ^ 32) := by
  constructor
  · decide
  · decide +kernel

theorem flt_zero (hw : FW w) {x : BitVec w} (hx : isFinite x = true) : Flt.flt x 0 = decide (num x < 0) := by
  have h0 : isFinite (0 : BitVec w) = true ∧ num (0 : BitVec w) = 0 := by
    have := finite_zero hw false
    have e : mk w false 0 = 0 := by unfold mk; simp
    rwa [e] at this
  unfold Flt.flt Flt.ordered
  rw [(not_nan_of_finite hx).1, (not_nan_of_finite h0.1).1]
  simp only [Bool.not_false, Bool.and_self, Bool.true_and]
  exact decide_eq_decide.2 (by rw [key_lt_iff, h0.2])

/-- The correction of the unsigned conversion in double precision is exact. -/
theorem fixU_lane (x : BitVec 32) :
    (if Flt.flt (Hw.i2f true 64 x : BitVec 64) 0 then Fp.add (Hw.i2f true 64 x) 0x41f0000000000000#64 else Hw.i2f true 64 x) =
      (Hw.i2f false 64 x : BitVec 64) := by
  have h := i2f64_exact true x
  rw [flt_zero fw64 h.1, h.2]
  have e : (val true x * 2 ^ unit 64 < 0) ↔ val true x < 0 := by
    constructor
    · intro h
      by_contra hn
      have : 0 ≤ val true x * 2 ^ unit 64 := Int.mul_nonneg (by omega) (by positivity)
      omega
    · intro h; exact Int.mul_neg_of_neg_of_pos h (by positivity)
  have hv := val_unsigned x
  by_cases hn : val true x < 0
  · rw [if_pos hn] at hv
    have h31 := (val_natAbs true x).2 rfl
    rw [decide_eq_true (e.2 hn), if_pos rfl, add_isInt h two32_64 (by omega)]
    unfold Hw.i2f; rw [hv]
  · rw [if_neg hn] at hv
    rw [decide_eq_false (fun h => hn (e.1 h)), if_neg (by decide)]
    unfold Hw.i2f; rw [hv]

/-! ## Floating point to integers -/

/-- The integer part of `x` fits in an integer of `v` bits. -/
def Fits (sg : Bool) (v : Nat) (x : BitVec w) : Prop :=
  Fp.isFinite x = true ∧ lo sg v ≤ Fp.truncInt x ∧ Fp.truncInt x ≤ hi sg v

theorem cvtt_fits {sg : Bool} {x : BitVec w} (h : Fits sg v x) : Hw.cvtt sg v x = lane v (Fp.truncInt x) := by
  obtain ⟨h1, h2, h3⟩ := h
  unfold Hw.cvtt
  rw [if_neg]
  rintro (g | g | g)
  · rw [(not_nan_of_finite h1).1] at g; cases g
  · omega
  · omega

theorem clamp_fits {sg : Bool} {z : Int} (h2 : lo sg v ≤ z) (h3 : z ≤ hi sg v) : clamp sg v z = z := by
  unfold clamp; omega

theorem fcvtz_fits {sg : Bool} {x : BitVec w} (h : Fits sg v x) : Hw.fcvtz sg v x = lane v (Fp.truncInt x) := by
  obtain ⟨h1, h2, h3⟩ := h
  unfold Hw.fcvtz
  rw [(not_nan_of_finite h1).1, clamp_fits h2 h3]
  rfl

theorem f2i_fits {sg : Bool} {x : BitVec w} (h : Fits sg v x) : Null.f2i sg v x = some (lane v (Fp.truncInt x)) := by
  unfold Null.f2i; exact if_pos h

theorem fits_mono {x : BitVec w} {sg sg' : Bool} {v' : Nat} (h : Fits sg v x) (h1 : lo sg' v' ≤ lo sg v) (h2 : hi sg v ≤ hi sg' v') :
    Fits sg' v' x := ⟨h.1, Int.le_trans h1 h.2.1, Int.le_trans h.2.2 h2⟩

end Simdpp
