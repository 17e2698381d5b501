import Verif.Props.FNewton

/-!
# The Newton-Raphson step for the reciprocal square root
-/

namespace Simdpp
open Spec Spec.Fp Spec.Flt

/-- A positive number well inside the range of `float`, with its root. -/
theorem sqrt_bounds {v : ℝ} (h1 : 1 / 2 ^ 124 ≤ v) (h2 : v ≤ 2 ^ 124) :
    0 < Real.sqrt v ∧ Real.sqrt v * Real.sqrt v = v ∧ 1 / 2 ^ 62 ≤ Real.sqrt v ∧ Real.sqrt v ≤ 2 ^ 62 := by
  have hv : 0 < v := lt_of_lt_of_le (by positivity) h1
  refine ⟨Real.sqrt_pos.2 hv, Real.mul_self_sqrt hv.le, ?_, ?_⟩
  · apply Real.le_sqrt_of_sq_le
    refine le_trans (le_of_eq ?_) h1
    norm_num
  · rw [Real.sqrt_le_left (by positivity)]
    refine le_trans h2 (le_of_eq ?_)
    norm_num

/-- The ranges of an estimate `x` of `1 / sqrt(v)`. -/
structure Near (X S : ℝ) : Prop where
  pos : 0 < X
  lo : 7 / 8 ≤ X * S
  hi : X * S ≤ 9 / 8
  le : X ≤ 9 / 8 * 2 ^ 62
  ge : 7 / 8 * (1 / 2 ^ 62) ≤ X

theorem near_of {X S e : ℝ} (h0 : 0 < S) (h1 : 1 / 2 ^ 62 ≤ S) (h2 : S ≤ 2 ^ 62) (he : |1 - X * S| ≤ e) (he2 : e ≤ 1 / 8) : Near X S := by
  have hb := abs_le.1 (he.trans he2)
  have lo : 7 / 8 ≤ X * S := by linarith [hb.2]
  have hi : X * S ≤ 9 / 8 := by linarith [hb.1]
  have pos : 0 < X := by
    by_contra hc
    have : X * S ≤ 0 := mul_nonpos_of_nonpos_of_nonneg (not_lt.1 hc) h0.le
    linarith
  have p0 : (0 : ℝ) < 2 ^ 62 := by positivity
  refine ⟨pos, lo, hi, ?_, ?_⟩
  · have : X * (1 / 2 ^ 62) ≤ 9 / 8 := le_trans (mul_le_mul_of_nonneg_left h1 pos.le) hi
    have := mul_le_mul_of_nonneg_right this p0.le
    have e : X * (1 / 2 ^ 62) * 2 ^ 62 = X := by field_simp
    rwa [e] at this
  · have : 7 / 8 ≤ X * 2 ^ 62 := le_trans lo (mul_le_mul_of_nonneg_left h2 pos.le)
    have := mul_le_mul_of_nonneg_right this (by positivity : (0 : ℝ) ≤ 1 / 2 ^ 62)
    have e : X * 2 ^ 62 * (1 / 2 ^ 62) = X := by field_simp
    rwa [e] at this

/-- A lane holding `κ * (3 - x * x * a)`, with at most two roundings in the product and an error `δ` after it. -/
def ThreeMinus (κ δ : ℝ) (t x a : BitVec 32) : Prop :=
  isFinite t = true ∧ ∃ e1 e2 : ℝ, |e1| ≤ 201 / 100 * ulp ∧ |e2| ≤ δ ∧
    17 / 10 ≤ 3 - real x ^ 2 * real a * (1 + e1) ∧ 3 - real x ^ 2 * real a * (1 + e1) ≤ 23 / 10 ∧
    real t = κ * (3 - real x ^ 2 * real a * (1 + e1)) * (1 + e2)

attribute [local irreducible] Fp.mul Fp.fma Fp.sub Fp.add Fp.round Fp.sqrt

/-- Half of a lane. -/
theorem half_rel {t : BitVec 32} (ft : isFinite t = true) (h1 : 1 ≤ real t) (h2 : real t ≤ 3) :
    isFinite (Fp.div t f32_2) = true ∧ ∃ ε : ℝ, |ε| ≤ ulp ∧ real (Fp.div t f32_2) = real t / 2 * (1 + ε) := by
  obtain ⟨nx, ix⟩ := not_nan_of_finite ft
  have hn : 0 < num t := by
    have : (0 : ℝ) < (num t : ℝ) := by rw [real_eq]; exact mul_pos (by linarith) (by positivity)
    exact_mod_cast this
  have hms : t.msb = false := by
    by_contra hc
    have : num t ≤ 0 := by unfold num; rw [if_pos (by simpa using hc)]; omega
    omega
  have hnn : num t = (numMag 32 (mag t) : Int) := by unfold num; rw [hms]; rfl
  have e2 : numMag 32 (mag f32_2) = 2 ^ 150 := by decide +kernel
  have hq : quarters (numMag 32 (mag t) * 2 ^ unit 32) (numMag 32 (mag f32_2)) = 2 * numMag 32 (mag t) := by
    rw [e2, show unit 32 = 149 from rfl]
    unfold quarters
    have e3 : 2 * (numMag 32 (mag t) * 2 ^ 149) = numMag 32 (mag t) * 2 ^ 150 := by ring
    rw [e3, Nat.mul_div_cancel _ (by positivity), Nat.mul_mod_left, if_pos rfl, Nat.add_zero]
  have er : Fp.div t f32_2 = Fp.round 32 2 (2 * num t) := by
    unfold Fp.div
    rw [hq]
    simp only [nx, ix, show isNaN f32_2 = false by decide, show isInf f32_2 = false by decide, Bool.or_self, Bool.false_eq_true, if_false,
      if_neg (show num f32_2 ≠ 0 by decide +kernel), hms, show (f32_2).msb = false by decide, bne_self_eq_false]
    unfold Fp.round
    rw [show decide (2 * num t < 0) = false from decide_eq_false (by omega), show (2 * num t).natAbs = 2 * numMag 32 (mag t) by omega]
  rw [er]
  refine round_real ?_ (Or.inr ?_) ?_
  · push_cast; rw [real_eq, show (2 : ℝ) ^ 151 = 2 ^ 149 * 4 by norm_num]; ring
  · rw [abs_of_pos (by linarith)]; refine le_trans ?_ (show (1 : ℝ) / 2 ≤ real t / 2 by linarith); norm_num
  · rw [abs_of_pos (by linarith)]; refine lt_of_le_of_lt (show real t / 2 ≤ 3 / 2 by linarith) ?_; norm_num

section
variable {m : BitVec 32 → BitVec 32 → BitVec 32} (hm : IsMul m) {x a : BitVec 32} (fx : isFinite x = true) (fa : isFinite a = true)
  (ha1 : 1 / 2 ^ 124 ≤ real a) (ha2 : real a ≤ 2 ^ 124) (hn : Near (real x) (Real.sqrt (real a)))
include fx fa ha1 ha2 hn

omit fx fa in
theorem y2_bounds : 49 / 64 ≤ real x ^ 2 * real a ∧ real x ^ 2 * real a ≤ 81 / 64 := by
  obtain ⟨s0, s1, -, -⟩ := sqrt_bounds ha1 ha2
  have e : real x ^ 2 * real a = (real x * Real.sqrt (real a)) ^ 2 := by
    rw [mul_pow, sq (Real.sqrt (real a)), s1]
  rw [e]
  have := hn.lo
  have := hn.hi
  constructor <;> nlinarith

include hm

omit fa ha1 ha2 in
theorem xx_rel : isFinite (m x x) = true ∧ ∃ ε : ℝ, |ε| ≤ ulp ∧ real (m x x) = real x ^ 2 * (1 + ε) := by
  have h1 : (7 / 8 * (1 / 2 ^ 62)) ^ 2 ≤ real x ^ 2 := pow_le_pow_left₀ (by positivity) hn.ge 2
  have h2 : real x ^ 2 ≤ (9 / 8 * 2 ^ 62) ^ 2 := pow_le_pow_left₀ hn.pos.le hn.le 2
  have hab : |real x * real x| = real x ^ 2 := by rw [← sq, abs_of_nonneg (sq_nonneg _)]
  obtain ⟨hf, ε, he, hr⟩ := hm.rel fx fx (by rw [hab]; refine le_trans ?_ h1; norm_num) (by rw [hab]; refine lt_of_le_of_lt h2 ?_; norm_num)
  exact ⟨hf, ε, he, by rw [hr]; ring⟩

/-- The product `x * x * a` as the vector code computes it. -/
theorem xxa_rel {m' : BitVec 32 → BitVec 32 → BitVec 32} (hm' : IsMul m') :
    isFinite (m' a (m x x)) = true ∧ ∃ ε : ℝ, |ε| ≤ 201 / 100 * ulp ∧ real (m' a (m x x)) = real x ^ 2 * real a * (1 + ε) := by
  obtain ⟨f2, ε, he, hr⟩ := xx_rel hm fx hn
  obtain ⟨b1, b2⟩ := y2_bounds ha1 ha2 hn
  have hs := ulp_small
  have heb := abs_le.1 he
  have hb : 7 / 10 ≤ real a * real (m x x) ∧ real a * real (m x x) ≤ 13 / 10 := by
    rw [hr, show real a * (real x ^ 2 * (1 + ε)) = real x ^ 2 * real a * (1 + ε) by ring]
    constructor <;> nlinarith
  have hab : |real a * real (m x x)| = real a * real (m x x) := abs_of_pos (by linarith [hb.1])
  obtain ⟨hf, ε2, he2, hr2⟩ := hm'.rel fa f2 (by rw [hab]; refine le_trans ?_ hb.1; norm_num) (by rw [hab]; refine lt_of_le_of_lt hb.2 ?_; norm_num)
  obtain ⟨θ, hθ, eθ⟩ := comb_eps he he2 (by linarith)
  refine ⟨hf, θ, by linarith [ulp_pos], ?_⟩
  rw [hr2, hr, ← eθ]; ring

/-- The product as the portable code computes it. -/
theorem axx_rel : isFinite (m (m a x) x) = true ∧ ∃ ε : ℝ, |ε| ≤ 201 / 100 * ulp ∧ real (m (m a x) x) = real x ^ 2 * real a * (1 + ε) := by
  obtain ⟨s0, s1, s2, s3⟩ := sqrt_bounds ha1 ha2
  obtain ⟨b1, b2⟩ := y2_bounds ha1 ha2 hn
  have hs := ulp_small
  have hax : real a * real x = (real x * Real.sqrt (real a)) * Real.sqrt (real a) := by rw [mul_assoc, s1]; ring
  have c1 : 7 / 8 * (1 / 2 ^ 62) ≤ real a * real x := by
    rw [hax]; exact mul_le_mul hn.lo s2 (by positivity) (by linarith [hn.lo])
  have c2 : real a * real x ≤ 9 / 8 * 2 ^ 62 := by
    rw [hax]; exact mul_le_mul hn.hi s3 s0.le (by norm_num)
  have c0 : 0 < real a * real x := lt_of_lt_of_le (by positivity) c1
  obtain ⟨hf, ε, he, hr⟩ := hm.rel fa fx (by rw [abs_of_pos c0]; refine le_trans ?_ c1; norm_num)
    (by rw [abs_of_pos c0]; refine lt_of_le_of_lt c2 ?_; norm_num)
  have heb := abs_le.1 he
  have hb : 7 / 10 ≤ real (m a x) * real x ∧ real (m a x) * real x ≤ 13 / 10 := by
    rw [hr, show real a * real x * (1 + ε) * real x = real x ^ 2 * real a * (1 + ε) by ring]
    constructor <;> nlinarith
  have hab : |real (m a x) * real x| = real (m a x) * real x := abs_of_pos (by linarith [hb.1])
  obtain ⟨hf, ε2, he2, hr2⟩ := hm.rel hf fx (by rw [hab]; refine le_trans ?_ hb.1; norm_num) (by rw [hab]; refine lt_of_le_of_lt hb.2 ?_; norm_num)
  obtain ⟨θ, hθ, eθ⟩ := comb_eps he he2 (by linarith)
  refine ⟨hf, θ, by linarith [ulp_pos], ?_⟩
  rw [hr2, hr, ← eθ]; ring

omit fx fa hm in
/-- `3 - p` for a computed product. -/
theorem thr_sub {p : BitVec 32} (fp : isFinite p = true) {e1 : ℝ} (he1 : |e1| ≤ 201 / 100 * ulp) (hp : real p = real x ^ 2 * real a * (1 + e1)) :
    isFinite (Fp.sub f32_3 p) = true ∧ ∃ e2 : ℝ, |e2| ≤ ulp ∧ real (Fp.sub f32_3 p) = (3 - real x ^ 2 * real a * (1 + e1)) * (1 + e2) ∧
      17 / 10 ≤ 3 - real x ^ 2 * real a * (1 + e1) ∧ 3 - real x ^ 2 * real a * (1 + e1) ≤ 23 / 10 := by
  obtain ⟨b1, b2⟩ := y2_bounds ha1 ha2 hn
  have hs := ulp_small
  have heb := abs_le.1 he1
  have hb : 17 / 10 ≤ 3 - real x ^ 2 * real a * (1 + e1) ∧ 3 - real x ^ 2 * real a * (1 + e1) ≤ 23 / 10 := by
    constructor <;> nlinarith
  obtain ⟨hf, ε, he, hr⟩ := sub_rel fin_3 fp (by
    rw [real_3, hp, abs_of_pos (by linarith [hb.1])]
    have : (23 : ℝ) / 10 < 2 ^ 127 := by norm_num
    linarith [hb.2])
  exact ⟨hf, ε, he, by rw [hr, real_3, hp], hb⟩

omit fx fa hm in
theorem tm3_of_sub {p : BitVec 32} (fp : isFinite p = true) {e1 : ℝ} (he1 : |e1| ≤ 201 / 100 * ulp) (hp : real p = real x ^ 2 * real a * (1 + e1)) :
    ThreeMinus 1 ulp (Fp.sub f32_3 p) x a ∧ ThreeMinus (1 / 2) (2001 / 1000 * ulp) (Fp.div (Fp.sub f32_3 p) f32_2) x a := by
  obtain ⟨hf, e2, he2, hr, b1, b2⟩ := thr_sub ha1 ha2 hn fp he1 hp
  have hs := ulp_small
  have heb := abs_le.1 he2
  refine ⟨⟨hf, e1, e2, he1, he2, b1, b2, by rw [hr]; ring⟩, ?_⟩
  obtain ⟨hf3, e3, he3, hr3⟩ := half_rel hf (by rw [hr]; nlinarith) (by rw [hr]; nlinarith)
  obtain ⟨θ, hθ, eθ⟩ := comb_eps he2 he3 (by linarith)
  exact ⟨hf3, e1, θ, he1, by linarith [ulp_pos], b1, b2, by rw [hr3, hr, ← eθ]; ring⟩

/-- The vector code and AArch32. -/
theorem tm3_vec {m' : BitVec 32 → BitVec 32 → BitVec 32} (hm' : IsMul m') :
    ThreeMinus 1 ulp (Fp.sub f32_3 (m' a (m x x))) x a ∧ ThreeMinus (1 / 2) (2001 / 1000 * ulp) (Fp.div (Fp.sub f32_3 (m' a (m x x))) f32_2) x a := by
  obtain ⟨fp, e1, he1, hp⟩ := xxa_rel hm fx fa ha1 ha2 hn hm'
  exact tm3_of_sub ha1 ha2 hn fp he1 hp

/-- The portable code. -/
theorem tm3_portable : ThreeMinus 1 ulp (Fp.sub f32_3 (m (m a x) x)) x a := by
  obtain ⟨fp, e1, he1, hp⟩ := axx_rel hm fx fa ha1 ha2 hn
  exact (tm3_of_sub ha1 ha2 hn fp he1 hp).1

/-- AltiVec and AArch64, which do not round the product. -/
theorem tm3_fused : ThreeMinus 1 ulp (Hw.nmsub a (m x x) f32_3) x a ∧ ThreeMinus (1 / 2) ulp (Hw.rsqrtsFused a (m x x)) x a := by
  obtain ⟨f2, ε, he, hr⟩ := xx_rel hm fx hn
  obtain ⟨b1, b2⟩ := y2_bounds ha1 ha2 hn
  have hs := ulp_small
  have heb := abs_le.1 he
  have e0 : real a * real (m x x) = real x ^ 2 * real a * (1 + ε) := by rw [hr]; ring
  have hb : 17 / 10 ≤ 3 - real x ^ 2 * real a * (1 + ε) ∧ 3 - real x ^ 2 * real a * (1 + ε) ≤ 23 / 10 := by
    constructor <;> nlinarith
  have he' : |ε| ≤ 201 / 100 * ulp := he.trans (by linarith [ulp_pos])
  have c1 : (1 : ℝ) / 2 ^ 126 ≤ 17 / 20 := by norm_num
  have c2 : (23 : ℝ) / 10 < 2 ^ 127 := by norm_num
  constructor
  · obtain ⟨hf, e2, he2, hr2⟩ := nmsub_rel fa f2 fin_3 (by rw [real_3, e0, abs_of_pos (by linarith [hb.1])]; linarith [hb.1])
      (by rw [real_3, e0, abs_of_pos (by linarith [hb.1])]; linarith [hb.2])
    exact ⟨hf, ε, e2, he', he2, hb.1, hb.2, by rw [hr2, real_3, e0]; ring⟩
  · obtain ⟨nx, ix⟩ := not_nan_of_finite fa
    obtain ⟨ny, iy⟩ := not_nan_of_finite f2
    unfold Hw.rsqrtsFused
    simp only [nx, ny, ix, iy, Bool.or_self, Bool.false_eq_true, if_false]
    have hv : ((num f32_3 * 2 ^ unit 32 - num a * num (m x x) : Int) : ℝ) = (3 - real a * real (m x x)) / 2 * 2 ^ (149 + (unit 32 + 1)) := by
      have eu : unit 32 = 149 := rfl
      have ep : (2 : ℝ) ^ (149 + (unit 32 + 1)) = 2 ^ 149 * 2 ^ 149 * 2 := by
        rw [eu, show (149 + (149 + 1) : Nat) = 149 + 149 + 1 from rfl, pow_succ, pow_add]
      rw [ep, Int.cast_sub, Int.cast_mul, Int.cast_mul, Int.cast_pow, real_eq, real_eq, real_eq, real_3, eu, Int.cast_ofNat]
      generalize (2 : ℝ) ^ 149 = P
      ring
    obtain ⟨hf, e2, he2, hr2⟩ := round_real hv (Or.inr (by rw [e0, abs_of_pos (by linarith [hb.1])]; linarith [hb.1]))
      (by rw [e0, abs_of_pos (by linarith [hb.1])]; linarith [hb.2])
    exact ⟨hf, ε, e2, he', he2, hb.1, hb.2, by rw [hr2, e0]; ring⟩

theorem tm3_vrsqrts (b : Bool) : ThreeMinus (1 / 2) (2001 / 1000 * ulp) (Hw.vrsqrts b a (m x x)) x a := by
  obtain ⟨f2, -⟩ := xx_rel hm fx hn
  unfold Hw.vrsqrts
  rw [infZero_false f2 fa, if_neg (by decide)]
  cases b
  · rw [if_neg Bool.false_ne_true]; exact (tm3_vec hm fx fa ha1 ha2 hn isMul_mul).2
  · rw [if_pos rfl]
    obtain ⟨h0, e1, e2, h1, h2, h3⟩ := (tm3_fused hm fx fa ha1 ha2 hn).2
    exact ⟨h0, e1, e2, h1, h2.trans (by linarith [ulp_pos]), h3⟩

end

/-- One Newton-Raphson step towards `1 / sqrt(a)`: from an estimate with relative error `e` to one with `2 e² + 6 · 2⁻²⁴`. -/
def RsqrtStep (g : BitVec 32 → BitVec 32 → BitVec 32) : Prop :=
  ∀ (x a : BitVec 32) (e : ℝ), isFinite x = true → isFinite a = true → 1 / 2 ^ 124 ≤ real a → real a ≤ 2 ^ 124 →
    |1 - real x * Real.sqrt (real a)| ≤ e → e ≤ 1 / 8 →
    isFinite (g x a) = true ∧ |1 - real (g x a) * Real.sqrt (real a)| ≤ 2 * e ^ 2 + 6 / 2 ^ 24

/-- The error after the last multiplications. -/
theorem rsqrt_final {X V e R e1 θ : ℝ} (hV : 0 ≤ V) (he1 : |1 - X * Real.sqrt V| ≤ e) (he2 : e ≤ 1 / 8) (h1 : |e1| ≤ 201 / 100 * ulp)
    (h2 : |θ| ≤ 302 / 100 * ulp) (hR : R = X * (3 - X ^ 2 * V * (1 + e1)) / 2 * (1 + θ)) :
    |1 - R * Real.sqrt V| ≤ 2 * e ^ 2 + 6 / 2 ^ 24 := by
  have s1 := Real.mul_self_sqrt hV
  have e0 : 1 - R * Real.sqrt V = 1 - (X * Real.sqrt V) * (3 - (X * Real.sqrt V) ^ 2 * (1 + e1)) / 2 * (1 + θ) := by
    rw [mul_pow, sq (Real.sqrt V), s1, hR]; ring
  rw [e0]
  refine (rsqrt_step_err he1 he2 h1 h2).trans (le_of_eq ?_)
  unfold ulp; ring

theorem near_est {x a : BitVec 32} {e : ℝ} (ha1 : 1 / 2 ^ 124 ≤ real a) (ha2 : real a ≤ 2 ^ 124)
    (he : |1 - real x * Real.sqrt (real a)| ≤ e) (he2 : e ≤ 1 / 8) : Near (real x) (Real.sqrt (real a)) := by
  obtain ⟨s0, s1, s2, s3⟩ := sqrt_bounds ha1 ha2
  exact near_of s0 s2 s3 he he2

/-- The value of a lane `3 - x * x * a`. -/
theorem ThreeMinus.bounds {t x a : BitVec 32} {δ : ℝ} (hδ : δ ≤ 1 / 1000) :
    (ThreeMinus 1 δ t x a → 16 / 10 ≤ real t ∧ real t ≤ 24 / 10) ∧ (ThreeMinus (1 / 2) δ t x a → 8 / 10 ≤ real t ∧ real t ≤ 12 / 10) := by
  constructor
  all_goals
    rintro ⟨-, e1, e2, -, h2, b1, b2, hr⟩
    have := abs_le.1 (h2.trans hδ)
    rw [hr]
    constructor <;> nlinarith [this.1, this.2]

section
variable {m : BitVec 32 → BitVec 32 → BitVec 32} (hm : IsMul m) {x p q : BitVec 32}
include hm

theorem near_mul (fp : isFinite p = true) (fq : isFinite q = true) (h1 : 1 / 2 ^ 100 ≤ real p) (h2 : real p ≤ 2 ^ 100) (h3 : 1 / 4 ≤ real q) (h4 : real q ≤ 4) :
    isFinite (m p q) = true ∧ ∃ ε : ℝ, |ε| ≤ ulp ∧ real (m p q) = real p * real q * (1 + ε) := by
  have c1 : (1 : ℝ) / 2 ^ 100 * (1 / 4) ≤ real p * real q := mul_le_mul h1 h3 (by norm_num) (le_trans (by norm_num) h1)
  have c2 : real p * real q ≤ 2 ^ 100 * 4 := mul_le_mul h2 h4 (by linarith) (by norm_num)
  have c0 : 0 < real p * real q := lt_of_lt_of_le (by norm_num) c1
  exact hm.rel fp fq (by rw [abs_of_pos c0]; refine le_trans ?_ c1; norm_num) (by rw [abs_of_pos c0]; refine lt_of_le_of_lt c2 ?_; norm_num)

end

section
variable {m : BitVec 32 → BitVec 32 → BitVec 32} (hm : IsMul m) {t : BitVec 32 → BitVec 32 → BitVec 32}
include hm

/-- `(x * t) * 0.5`. -/
theorem rsqrtStep_of1
    (ht : ∀ x a, isFinite x = true → isFinite a = true → 1 / 2 ^ 124 ≤ real a → real a ≤ 2 ^ 124 → Near (real x) (Real.sqrt (real a)) →
      ThreeMinus 1 ulp (t x a) x a) :
    RsqrtStep (fun x a => m (m x (t x a)) f32_half) ∧ RsqrtStep (fun x a => m (m x f32_half) (t x a)) := by
  have hs := ulp_small
  constructor
  all_goals
    intro x a e fx fa ha1 ha2 he1 he2
    have hn := near_est ha1 ha2 he1 he2
    have htt := ht x a fx fa ha1 ha2 hn
    obtain ⟨b1, b2⟩ := (ThreeMinus.bounds (by linarith)).1 htt
    obtain ⟨ft, e1, e2, h1, h2, -, -, hr⟩ := htt
    have hx1 : (1 : ℝ) / 2 ^ 90 ≤ real x := le_trans (by norm_num) hn.ge
    have hx2 : real x ≤ 2 ^ 90 := le_trans hn.le (by norm_num)
  · obtain ⟨f1, ε1, k1, r1⟩ := near_mul hm fx ft (le_trans (by norm_num) hx1) (le_trans hx2 (by norm_num)) (by linarith) (by linarith)
    have kb := abs_le.1 k1
    obtain ⟨c1, c2⟩ : 1 / 2 ^ 90 ≤ real (m x (t x a)) ∧ real (m x (t x a)) ≤ 2 ^ 90 * 3 := by
      have q1 : 15 / 10 ≤ real (t x a) * (1 + ε1) := by nlinarith
      have q2 : real (t x a) * (1 + ε1) ≤ 25 / 10 := by nlinarith
      rw [r1, mul_assoc]
      constructor
      · exact le_trans (by linarith) (le_mul_of_one_le_right hn.pos.le (by linarith : 1 ≤ real (t x a) * (1 + ε1)))
      · exact mul_le_mul hx2 (by linarith) (by linarith) (by norm_num)
    obtain ⟨f3, ε2, k2, r2⟩ := near_mul hm f1 fin_half (le_trans (by norm_num) c1) (le_trans c2 (by norm_num)) (by rw [real_half]; norm_num) (by rw [real_half]; norm_num)
    refine ⟨f3, ?_⟩
    obtain ⟨θ, hθ, eθ⟩ := comb_eps h2 k1 (by linarith)
    obtain ⟨θ2, hθ2, eθ2⟩ := comb_eps hθ k2 (by linarith)
    refine rsqrt_final (by linarith [(by positivity : (0:ℝ) < 1 / 2 ^ 124)]) he1 he2 h1 (θ := θ2) (by linarith [ulp_pos]) ?_
    rw [r2, r1, hr, real_half, ← eθ2, ← eθ]; ring
  · obtain ⟨f1, ε1, k1, r1⟩ := near_mul hm fx fin_half (le_trans (by norm_num) hx1) (le_trans hx2 (by norm_num)) (by rw [real_half]; norm_num) (by rw [real_half]; norm_num)
    have kb := abs_le.1 k1
    obtain ⟨c1, c2⟩ : 1 / 2 ^ 90 * (1 / 4) ≤ real (m x f32_half) ∧ real (m x f32_half) ≤ 2 ^ 90 := by
      rw [r1, mul_assoc, real_half]
      constructor
      · exact mul_le_mul hx1 (by linarith) (by norm_num) hn.pos.le
      · exact le_trans (mul_le_of_le_one_right hn.pos.le (by linarith)) hx2
    obtain ⟨f3, ε2, k2, r2⟩ := near_mul hm f1 ft (le_trans (by norm_num) c1) (le_trans c2 (by norm_num)) (by linarith) (by linarith)
    refine ⟨f3, ?_⟩
    obtain ⟨θ, hθ, eθ⟩ := comb_eps h2 k1 (by linarith)
    obtain ⟨θ2, hθ2, eθ2⟩ := comb_eps hθ k2 (by linarith)
    refine rsqrt_final (by linarith [(by positivity : (0:ℝ) < 1 / 2 ^ 124)]) he1 he2 h1 (θ := θ2) (by linarith [ulp_pos]) ?_
    rw [r2, r1, hr, real_half, ← eθ2, ← eθ]; ring

/-- `x * t`. -/
theorem rsqrtStep_of2
    (ht : ∀ x a, isFinite x = true → isFinite a = true → 1 / 2 ^ 124 ≤ real a → real a ≤ 2 ^ 124 → Near (real x) (Real.sqrt (real a)) →
      ThreeMinus (1 / 2) (2001 / 1000 * ulp) (t x a) x a) :
    RsqrtStep (fun x a => m x (t x a)) := by
  have hs := ulp_small
  intro x a e fx fa ha1 ha2 he1 he2
  have hn := near_est ha1 ha2 he1 he2
  have htt := ht x a fx fa ha1 ha2 hn
  obtain ⟨b1, b2⟩ := (ThreeMinus.bounds (by linarith)).2 htt
  obtain ⟨ft, e1, e2, h1, h2, -, -, hr⟩ := htt
  obtain ⟨f1, ε1, k1, r1⟩ := near_mul hm fx ft (le_trans (by norm_num) hn.ge) (le_trans hn.le (by norm_num)) (by linarith) (by linarith)
  refine ⟨f1, ?_⟩
  obtain ⟨θ, hθ, eθ⟩ := comb_eps h2 k1 (by linarith)
  refine rsqrt_final (by linarith [(by positivity : (0:ℝ) < 1 / 2 ^ 124)]) he1 he2 h1 (θ := θ) (by linarith [ulp_pos]) ?_
  rw [r1, hr, ← eθ]; ring

end

/-- Every build's `rsqrt_rh` acts lane by lane, and every lane is a Newton-Raphson step. -/
theorem i_rsqrt_rh_ex {c : Cfg} (h : c.Ok) {r : Reg} (hr : c.hasVec .flt 32 r = true) :
    ∃ g, RsqrtStep g ∧ ∀ n (x a : Vec 32 n), i_rsqrt_rh c r x a = some (fun i => g (x i) (a i)) := by
  obtain ⟨m, hm, em⟩ := i_fmul_lane h hr
  have hv : ∃ g, RsqrtStep g ∧ ∀ n (x a : Vec 32 n), v_rsqrt_rh c r x a = some (fun i => g (x i) (a i)) := by
    refine ⟨fun x a => m (m x f32_half) (Fp.sub f32_3 (m a (m x x))),
      (rsqrtStep_of1 hm (t := fun x a => Fp.sub f32_3 (m a (m x x))) fun x a fx fa h1 h2 hh => (tm3_vec hm fx fa h1 h2 hh hm).1).2, fun n x a => ?_⟩
    unfold v_rsqrt_rh
    simp only [em, i_fsub_eq h hr, Option.bind_eq_bind, Option.bind_some]
    rfl
  unfold i_rsqrt_rh
  cases r <;> dsimp only <;> split_ifs <;>
    first
    | exact hv
    | exact ⟨_, (rsqrtStep_of1 isMul_mul fun x a fx fa h1 h2 hh => tm3_portable isMul_mul fx fa h1 h2 hh).1, fun _ _ _ => rfl⟩
    | (refine ⟨fun x a => m x (Hw.vrsqrts c.neon64 a (m x x)), rsqrtStep_of2 hm (t := fun x a => Hw.vrsqrts c.neon64 a (m x x)) fun x a fx fa h1 h2 hh => tm3_vrsqrts hm fx fa h1 h2 hh _, fun n x a => ?_⟩
       simp only [em, Option.bind_eq_bind, Option.bind_some]
       done)
    | (refine ⟨fun x a => m (m x f32_half) (Hw.nmsub a (m x x) f32_3), (rsqrtStep_of1 hm (t := fun x a => Hw.nmsub a (m x x) f32_3) fun x a fx fa h1 h2 hh => (tm3_fused hm fx fa h1 h2 hh).1).2, fun n x a => ?_⟩
       simp only [em, Option.bind_eq_bind, Option.bind_some]
       rfl)
    | (exfalso; cfg_absurd h)

end Simdpp
