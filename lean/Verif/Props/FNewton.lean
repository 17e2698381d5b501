import Verif.Props.FpRel
import Mathlib.Tactic.Positivity

/-!
# The Newton-Raphson steps for the reciprocal and the reciprocal square root

Every build's `rcp_rh` and `rsqrt_rh` is a lane-wise function that roughly squares the relative error of the estimate it is given.
-/

namespace Simdpp
open Spec Spec.Fp Spec.Flt

theorem ulp_small : ulp ≤ 1 / 1000000 := by unfold ulp; norm_num

/-! ### Real arithmetic -/

theorem abs_le' {x b : ℝ} (h : |x| ≤ b) : -b ≤ x ∧ x ≤ b := abs_le.1 h

/-- Two rounding factors together. -/
theorem two_eps {a b : ℝ} (ha : |a| ≤ ulp) (hb : |b| ≤ ulp) : ∃ c, |c| ≤ 3 * ulp ∧ (1 + a) * (1 + b) = 1 + c := by
  refine ⟨a + b + a * b, ?_, by ring⟩
  have h1 : |a * b| ≤ ulp * ulp := by rw [abs_mul]; exact mul_le_mul ha hb (abs_nonneg _) ulp_pos.le
  have h2 := abs_add_le (a + b) (a * b)
  have h3 := abs_add_le a b
  have h4 : ulp * ulp ≤ ulp * 1 := mul_le_mul_of_nonneg_left (by linarith [ulp_small]) ulp_pos.le
  linarith

theorem comb_eps {a b A B : ℝ} (ha : |a| ≤ A) (hb : |b| ≤ B) (hB : B ≤ 1 / 1000) :
    ∃ c, |c| ≤ A * (1 + 1 / 1000) + B ∧ (1 + a) * (1 + b) = 1 + c := by
  refine ⟨a + b + a * b, ?_, by ring⟩
  have hA : 0 ≤ A := le_trans (abs_nonneg _) ha
  have h1 : |a * b| ≤ A * (1 / 1000) := by rw [abs_mul]; exact mul_le_mul ha (hb.trans hB) (abs_nonneg _) hA
  have h2 := abs_add_le (a + b) (a * b)
  have h3 := abs_add_le a b
  linarith

/-- The error after a step for `1 / a`: `y` is `x * a`. -/
theorem rcp_step_err {y e e1 θ : ℝ} (hy : |1 - y| ≤ e) (he : e ≤ 1 / 4) (h1 : |e1| ≤ ulp) (h2 : |θ| ≤ 201 / 100 * ulp) :
    |1 - y * (2 - y * (1 + e1)) * (1 + θ)| ≤ e ^ 2 + 4 * ulp := by
  have hu := ulp_pos
  have hs := ulp_small
  have hyb := abs_le.1 hy
  have he0 : 0 ≤ e := le_trans (abs_nonneg _) hy
  have hy2 : y ^ 2 ≤ 25 / 16 := by nlinarith
  have hA : y * (2 - y * (1 + e1)) = 1 - (1 - y) ^ 2 - y ^ 2 * e1 := by ring
  have hd : (1 - y) ^ 2 ≤ e ^ 2 := by rw [← sq_abs]; exact pow_le_pow_left₀ (abs_nonneg _) hy 2
  have hq : |y ^ 2 * e1| ≤ 25 / 16 * ulp := by
    rw [abs_mul, abs_of_nonneg (sq_nonneg y)]
    exact mul_le_mul hy2 h1 (abs_nonneg _) (by norm_num)
  have hqb := abs_le.1 hq
  have he2 : e ^ 2 ≤ 1 / 16 := by nlinarith
  have hAb : |y * (2 - y * (1 + e1))| ≤ 1 + 1 / 1000 := by
    rw [hA, abs_le]
    constructor <;> nlinarith [sq_nonneg (1 - y)]
  have hAt : |y * (2 - y * (1 + e1)) * θ| ≤ (1 + 1 / 1000) * (201 / 100 * ulp) := by
    rw [abs_mul]; exact mul_le_mul hAb h2 (abs_nonneg _) (by norm_num)
  have hAtb := abs_le.1 hAt
  have e0 : 1 - y * (2 - y * (1 + e1)) * (1 + θ) = (1 - y) ^ 2 + y ^ 2 * e1 - y * (2 - y * (1 + e1)) * θ := by ring
  rw [e0, abs_le]
  have := sq_nonneg (1 - y)
  constructor <;> linarith

/-- The error after a step for `1 / sqrt(a)`: `y` is `x * sqrt(a)`. -/
theorem rsqrt_step_err {y e e1 θ : ℝ} (hy : |1 - y| ≤ e) (he : e ≤ 1 / 8) (h1 : |e1| ≤ 201 / 100 * ulp) (h2 : |θ| ≤ 302 / 100 * ulp) :
    |1 - y * (3 - y ^ 2 * (1 + e1)) / 2 * (1 + θ)| ≤ 2 * e ^ 2 + 6 * ulp := by
  have hu := ulp_pos
  have hs := ulp_small
  have hyb := abs_le.1 hy
  have he0 : 0 ≤ e := le_trans (abs_nonneg _) hy
  have hy1 : |y| ≤ 9 / 8 := by rw [abs_le]; constructor <;> linarith
  have hd : (1 - y) ^ 2 ≤ e ^ 2 := by rw [← sq_abs]; exact pow_le_pow_left₀ (abs_nonneg _) hy 2
  have he2 : e ^ 2 ≤ 1 / 64 := by nlinarith
  have hA : y * (3 - y ^ 2 * (1 + e1)) / 2 = 1 - (1 - y) ^ 2 * (2 + y) / 2 - y ^ 3 / 2 * e1 := by ring
  have hy3 : |y ^ 3 / 2| ≤ 3 / 4 := by
    rw [abs_div, abs_pow, abs_two]
    have : |y| ^ 3 ≤ (9 / 8) ^ 3 := pow_le_pow_left₀ (abs_nonneg _) hy1 3
    norm_num at this ⊢
    linarith
  have hq : |y ^ 3 / 2 * e1| ≤ 3 / 4 * (201 / 100 * ulp) := by
    rw [abs_mul]; exact mul_le_mul hy3 h1 (abs_nonneg _) (by norm_num)
  have hqb := abs_le.1 hq
  have hm : (1 - y) ^ 2 * (2 + y) / 2 ≤ 2 * e ^ 2 ∧ 0 ≤ (1 - y) ^ 2 * (2 + y) / 2 := by
    have h0 := sq_nonneg (1 - y)
    constructor
    · nlinarith
    · apply div_nonneg _ (by norm_num)
      exact mul_nonneg h0 (by linarith)
  have hAb : |y * (3 - y ^ 2 * (1 + e1)) / 2| ≤ 1 + 1 / 1000 := by
    rw [hA, abs_le]
    constructor <;> linarith [hm.1, hm.2]
  have hAt : |y * (3 - y ^ 2 * (1 + e1)) / 2 * θ| ≤ (1 + 1 / 1000) * (302 / 100 * ulp) := by
    rw [abs_mul]; exact mul_le_mul hAb h2 (abs_nonneg _) (by norm_num)
  have hAtb := abs_le.1 hAt
  have e0 : 1 - y * (3 - y ^ 2 * (1 + e1)) / 2 * (1 + θ) =
      (1 - y) ^ 2 * (2 + y) / 2 + y ^ 3 / 2 * e1 - y * (3 - y ^ 2 * (1 + e1)) / 2 * θ := by ring
  rw [e0, abs_le]
  constructor <;> linarith [hm.1, hm.2]

/-! ### Lanes -/

attribute [local irreducible] Fp.mul Fp.fma Fp.sub Fp.add Fp.round Fp.div Fp.sqrt

/-- A product of lanes: the library's `mul` on some build. -/
def IsMul (m : BitVec 32 → BitVec 32 → BitVec 32) : Prop := ∀ x y, SameUpToZero (m x y) (Fp.mul x y)

theorem isMul_mul : IsMul Fp.mul := fun _ _ => .inl rfl

theorem i_fmul_lane {c : Cfg} (h : c.Ok) {r : Reg} (hr : c.hasVec .flt 32 r = true) :
    ∃ m, IsMul m ∧ ∀ n (a b : Vec 32 n), i_fmul c r a b = some (fun i => m (a i) (b i)) := by
  by_cases hp : c.mulByFma 32 r
  · refine ⟨fun x y => Fp.fma x y 0, fun x y => fma_zero fw32 _ _, fun n a b => ?_⟩
    obtain ⟨-, e2, e3, e4⟩ := hp
    subst e2
    unfold i_fmul
    dsimp only
    rw [if_pos rfl]
    split_ifs <;> first | rfl | cfg_absurd h
  · exact ⟨Fp.mul, isMul_mul, fun n a b => i_fmul_eq h hr hp a b⟩

theorem IsMul.rel {m : BitVec 32 → BitVec 32 → BitVec 32} (hm : IsMul m) {x y : BitVec 32} (fx : isFinite x = true) (fy : isFinite y = true)
    (h1 : 1 / 2 ^ 126 ≤ |real x * real y|) (h2 : |real x * real y| < 2 ^ 127) :
    isFinite (m x y) = true ∧ ∃ ε : ℝ, |ε| ≤ ulp ∧ real (m x y) = real x * real y * (1 + ε) := by
  obtain ⟨hf, ε, he, hr⟩ := mul_rel fx fy h1 h2
  obtain ⟨s1, s2⟩ := same_real (hm x y)
  exact ⟨s2 hf, ε, he, s1.trans hr⟩

/-- A lane holding `2 - x * a`, the product and the difference each rounded once at most. -/
def TwoMinus (t x a : BitVec 32) : Prop :=
  isFinite t = true ∧ ∃ e1 e2 : ℝ, |e1| ≤ ulp ∧ |e2| ≤ ulp ∧ real t = (2 - real x * real a * (1 + e1)) * (1 + e2)

theorem fin_2 : isFinite f32_2 = true := by decide
theorem fin_3 : isFinite f32_3 = true := by decide
theorem fin_half : isFinite f32_half = true := by decide

section
variable {x a : BitVec 32} (fx : isFinite x = true) (fa : isFinite a = true) (hxa : |1 - real x * real a| ≤ 1 / 4)
include fx fa hxa

omit fx fa in
theorem xa_bounds : 3 / 4 ≤ real x * real a ∧ real x * real a ≤ 5 / 4 := by
  have := abs_le.1 hxa
  constructor <;> linarith [this.1, this.2]

theorem tm_sub {m : BitVec 32 → BitVec 32 → BitVec 32} (hm : IsMul m) : TwoMinus (Fp.sub f32_2 (m a x)) x a ∧ TwoMinus (Fp.sub f32_2 (m x a)) x a := by
  obtain ⟨b1, b2⟩ := xa_bounds hxa
  have ha : |real x * real a| = real x * real a := abs_of_pos (by linarith)
  have hp : 1 / 2 ^ 126 ≤ |real x * real a| := by rw [ha]; refine le_trans ?_ b1; norm_num
  have hq : |real x * real a| < 2 ^ 127 := by rw [ha]; refine lt_of_le_of_lt b2 ?_; norm_num
  have key : ∀ t : BitVec 32, isFinite t = true → ∀ ε : ℝ, |ε| ≤ ulp → real t = real x * real a * (1 + ε) → TwoMinus (Fp.sub f32_2 t) x a := by
    intro t ft ε he hr
    have hs := ulp_small
    have heb := abs_le.1 he
    have hb : 7 / 10 ≤ real t ∧ real t ≤ 13 / 10 := by
      rw [hr]; constructor <;> nlinarith
    obtain ⟨hf, ε2, he2, hr2⟩ := sub_rel fin_2 ft (by
      rw [real_2, abs_of_pos (by linarith)]
      have : (2 : ℝ) < 2 ^ 127 := by norm_num
      linarith)
    exact ⟨hf, ε, ε2, he, he2, by rw [hr2, real_2, hr]⟩
  constructor
  · obtain ⟨hf, ε, he, hr⟩ := hm.rel fa fx (by rwa [mul_comm]) (by rwa [mul_comm])
    exact key _ hf ε he (by rw [hr]; ring)
  · obtain ⟨hf, ε, he, hr⟩ := hm.rel fx fa hp hq
    exact key _ hf ε he hr

theorem tm_fused : TwoMinus (Fp.fma (Fp.neg a) x f32_2) x a ∧ TwoMinus (Hw.nmsub x a f32_2) x a := by
  obtain ⟨b1, b2⟩ := xa_bounds hxa
  have hc : 1 / 2 ^ 126 ≤ |2 - real x * real a| := by
    rw [abs_of_pos (by linarith)]
    have : (1 : ℝ) / 2 ^ 126 ≤ 3 / 4 := by norm_num
    linarith
  have hd : |2 - real x * real a| < 2 ^ 127 := by
    rw [abs_of_pos (by linarith)]
    have : (2 : ℝ) < 2 ^ 127 := by norm_num
    linarith
  have e : real (Fp.neg a) * real x + real f32_2 = 2 - real x * real a := by rw [real_neg, real_2]; ring
  constructor
  · obtain ⟨hf, ε, he, hr⟩ := fma_rel ((neg_class fw32 a).2.2.trans fa) fx fin_2 (by rwa [e]) (by rwa [e])
    exact ⟨hf, 0, ε, by rw [abs_zero]; exact ulp_pos.le, he, by rw [hr, e]; ring⟩
  · obtain ⟨hf, ε, he, hr⟩ := nmsub_rel fx fa fin_2 (by rwa [real_2]) (by rwa [real_2])
    exact ⟨hf, 0, ε, by rw [abs_zero]; exact ulp_pos.le, he, by rw [hr, real_2]; ring⟩

omit hxa in
theorem infZero_false : Hw.infZero a x = false := by
  unfold Hw.infZero
  rw [(not_nan_of_finite fx).2, (not_nan_of_finite fa).2]
  simp

theorem tm_vrecps (b : Bool) : TwoMinus (Hw.vrecps b a x) x a := by
  unfold Hw.vrecps
  rw [infZero_false fx fa, if_neg (by decide)]
  cases b
  · rw [if_neg Bool.false_ne_true]; exact (tm_sub fx fa hxa isMul_mul).1
  · rw [if_pos rfl]; exact (tm_fused fx fa hxa).1

end

/-- One Newton-Raphson step towards `1 / a`: from an estimate with relative error `e` to one with `e² + 4 · 2⁻²⁴`. -/
def RcpStep (g : BitVec 32 → BitVec 32 → BitVec 32) : Prop :=
  ∀ (x a : BitVec 32) (e : ℝ), isFinite x = true → isFinite a = true → 1 / 2 ^ 125 ≤ |real x| → |real x| ≤ 2 ^ 126 →
    |1 - real x * real a| ≤ e → e ≤ 1 / 4 →
    isFinite (g x a) = true ∧ |1 - real (g x a) * real a| ≤ e ^ 2 + 4 / 2 ^ 24

theorem rcpStep_of {m : BitVec 32 → BitVec 32 → BitVec 32} (hm : IsMul m) {t : BitVec 32 → BitVec 32 → BitVec 32}
    (ht : ∀ x a, isFinite x = true → isFinite a = true → |1 - real x * real a| ≤ 1 / 4 → TwoMinus (t x a) x a) :
    RcpStep (fun x a => m x (t x a)) := by
  intro x a e fx fa hx1 hx2 he1 he2
  obtain ⟨ft, e1, e2, h1, h2, hr⟩ := ht x a fx fa (he1.trans he2)
  obtain ⟨b1, b2⟩ := xa_bounds (he1.trans he2)
  have hs := ulp_small
  have h1b := abs_le.1 h1
  have h2b := abs_le.1 h2
  have hp : 7 / 10 ≤ 2 - real x * real a * (1 + e1) ∧ 2 - real x * real a * (1 + e1) ≤ 13 / 10 := by
    constructor <;> nlinarith
  have hb : 6 / 10 ≤ real (t x a) ∧ real (t x a) ≤ 14 / 10 := by
    rw [hr]; constructor <;> nlinarith [hp.1, hp.2]
  have hab : |real x * real (t x a)| = |real x| * real (t x a) := by rw [abs_mul, abs_of_pos (by linarith [hb.1] : 0 < real (t x a))]
  obtain ⟨hf, ε, he, hr2⟩ := hm.rel fx ft (by
    rw [hab]
    have : (1 : ℝ) / 2 ^ 125 * (6 / 10) ≤ |real x| * real (t x a) := mul_le_mul hx1 hb.1 (by norm_num) (abs_nonneg _)
    refine le_trans ?_ this; norm_num) (by
    rw [hab]
    have : |real x| * real (t x a) ≤ (2 : ℝ) ^ 126 * (14 / 10) := mul_le_mul hx2 hb.2 (by linarith [hb.1]) (by positivity)
    refine lt_of_le_of_lt this ?_; norm_num)
  refine ⟨hf, ?_⟩
  obtain ⟨θ, hθ, eθ⟩ := comb_eps h2 he (by linarith)
  have e0 : 1 - real (m x (t x a)) * real a = 1 - (real x * real a) * (2 - (real x * real a) * (1 + e1)) * (1 + θ) := by
    rw [hr2, hr, ← eθ]; ring
  rw [e0]
  have := rcp_step_err he1 he2 h1 (θ := θ) (by linarith [ulp_pos])
  refine this.trans (le_of_eq ?_)
  unfold ulp; ring

/-- Every build's `rcp_rh` acts lane by lane, and every lane is a Newton-Raphson step. -/
theorem i_rcp_rh_ex {c : Cfg} (h : c.Ok) {r : Reg} (hr : c.hasVec .flt 32 r = true) :
    ∃ g, RcpStep g ∧ ∀ n (x a : Vec 32 n), i_rcp_rh c r x a = some (fun i => g (x i) (a i)) := by
  obtain ⟨m, hm, em⟩ := i_fmul_lane h hr
  have hv : ∃ g, RcpStep g ∧ ∀ n (x a : Vec 32 n), v_rcp_rh c r x a = some (fun i => g (x i) (a i)) := by
    refine ⟨fun x a => m x (Fp.sub f32_2 (m a x)), rcpStep_of hm fun x a fx fa hh => (tm_sub fx fa hh hm).1, fun n x a => ?_⟩
    unfold v_rcp_rh
    simp only [em, i_fsub_eq h hr, Option.bind_eq_bind, Option.bind_some]
    rfl
  unfold i_rcp_rh
  cases r <;> dsimp only <;> split_ifs <;>
    first
    | exact hv
    | exact ⟨_, rcpStep_of isMul_mul fun x a fx fa hh => (tm_sub fx fa hh isMul_mul).2, fun _ _ _ => rfl⟩
    | exact ⟨_, rcpStep_of hm fun x a fx fa hh => tm_vrecps fx fa hh _, fun n x a => em n x _⟩
    | exact ⟨_, rcpStep_of hm fun x a fx fa hh => (tm_fused fx fa hh).2, fun n x a => em n x _⟩
    | (exfalso; cfg_absurd h)

end Simdpp
