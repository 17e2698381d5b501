import Verif.Props.FNewtonSqrt
import Verif.Props.Samples

/-!
# C52: quotients, square roots and their estimates

`div`, `sqrt`, `rcp_e`, `rcp_rh`, `rsqrt_e`, `rsqrt_rh`. What the processor's estimate instructions return is the parameter `E`, of which
the theorems assume no more than a bound on the relative error.
-/

namespace Simdpp
open Spec Spec.Fp Spec.Flt
variable {w n : Nat}

/-- The builds whose `float32` division multiplies by a refined reciprocal estimate. -/
def Cfg.divByRcp (c : Cfg) (w : Nat) : Prop := w = 32 ∧ ((c.neonFltSp = true ∧ c.neon64 = false) ∨ (c.altivec = true ∧ c.vsx206 = false))

/-- The builds whose `float32` square root multiplies by a refined estimate of the reciprocal root. -/
def Cfg.sqrtByRsqrt (c : Cfg) (w : Nat) : Prop := w = 32 ∧ ((c.neonFltSp = true ∧ c.neon64 = false) ∨ c.altivec = true)

/-- The processor's reciprocal estimate has relative error at most `δ` on the numbers well inside the range. -/
def Est.RcpWithin (E : Est) (δ : ℝ) : Prop :=
  ∀ b : BitVec 32, isFinite b = true → 1 / 2 ^ 124 ≤ |real b| → |real b| ≤ 2 ^ 124 → isFinite (E.rcp b) = true ∧ |1 - real (E.rcp b) * real b| ≤ δ

/-- The processor's estimate of the reciprocal root has relative error at most `δ` on the positive numbers well inside the range. -/
def Est.RsqrtWithin (E : Est) (δ : ℝ) : Prop :=
  ∀ a : BitVec 32, isFinite a = true → 1 / 2 ^ 124 ≤ real a → real a ≤ 2 ^ 124 →
    isFinite (E.rsqrt a) = true ∧ |1 - real (E.rsqrt a) * Real.sqrt (real a)| ≤ δ

attribute [local irreducible] Fp.mul Fp.fma Fp.sub Fp.add Fp.round Fp.sqrt Fp.div

/-! ### Exact builds -/

theorem i_div_eq {c : Cfg} (h : c.Ok) (hw : w = 32 ∨ w = 64) {r : Reg} (hr : c.hasVec .flt w r = true) (hp : ¬ c.divByRcp w) (E : Est) (a b : Vec w n) :
    i_div c E r a b = some (fun i => Fp.div (a i) (b i)) := by
  unfold i_div
  unfold Cfg.divByRcp at hp
  rcases hw with rfl | rfl <;> cases r <;> dsimp only
  all_goals simp only [Cfg.hasVec] at hr
  all_goals split_ifs
  all_goals first
    | rfl
    | (exfalso; obtain ⟨o1, o2, o3, o4, o5, o6, o7, o8, o9, o10, o11, o12, o13, o14, o15, o16, o17, o18, o19⟩ := h
       simp only [Cfg.neonNoFltSp, Cfg.neon64, Cfg.neon32] at *; grind)

theorem i_sqrt_eq {c : Cfg} (h : c.Ok) (hw : w = 32 ∨ w = 64) {r : Reg} (hr : c.hasVec .flt w r = true) (hp : ¬ c.sqrtByRsqrt w) (E : Est) (a : Vec w n) :
    i_sqrt c E r a = some (fun i => Fp.sqrt (a i)) := by
  unfold i_sqrt
  unfold Cfg.sqrtByRsqrt at hp
  rcases hw with rfl | rfl <;> cases r <;> dsimp only
  all_goals simp only [Cfg.hasVec] at hr
  all_goals split_ifs
  all_goals first
    | rfl
    | (exfalso; obtain ⟨o1, o2, o3, o4, o5, o6, o7, o8, o9, o10, o11, o12, o13, o14, o15, o16, o17, o18, o19⟩ := h
       simp only [Cfg.neonNoFltSp, Cfg.neon64, Cfg.neon32] at *; grind)

/-- C52: `div` gives the correctly rounded quotient of the lanes on every build that has a division instruction. -/
theorem C52_div {c : Cfg} (h : c.Ok) (hw : w = 32 ∨ w = 64) {r : Reg} (hr : c.hasVec .flt w r = true) (hp : ¬ c.divByRcp w) (E : Est) (a b : Vec w n) :
    ∃ res, i_div c E r a b = some res ∧ ∀ i, res i = Fp.div (a i) (b i) :=
  ⟨_, i_div_eq h hw hr hp E a b, fun _ => rfl⟩

/-- C52: `sqrt` gives the correctly rounded root of the lanes on every build that has a square root instruction. -/
theorem C52_sqrt {c : Cfg} (h : c.Ok) (hw : w = 32 ∨ w = 64) {r : Reg} (hr : c.hasVec .flt w r = true) (hp : ¬ c.sqrtByRsqrt w) (E : Est) (a : Vec w n) :
    ∃ res, i_sqrt c E r a = some res ∧ ∀ i, res i = Fp.sqrt (a i) :=
  ⟨_, i_sqrt_eq h hw hr hp E a, fun _ => rfl⟩

/-- C52 for vectors of several registers. -/
theorem C52_long {c : Cfg} (h : c.Ok) (hw : w = 32 ∨ w = 64) {r : Reg} (hr : c.hasVec .flt w r = true) (E : Est) {K L : Nat} (a b d : Fin K → Vec w L) :
    (¬ c.divByRcp w → ∃ q, Arr.apply2 (i_div c E r) a b 0 d = some q ∧ ∀ j, Arr.flat q j = Fp.div (Arr.flat a j) (Arr.flat b j)) ∧
    (¬ c.sqrtByRsqrt w → ∃ s, Arr.apply1 (i_sqrt c E r) a 0 d = some s ∧ ∀ j, Arr.flat s j = Fp.sqrt (Arr.flat a j)) :=
  ⟨fun hp => C25_apply2 _ _ (fun x y => i_div_eq h hw hr hp E x y) a b d, fun hp => C25_apply1 _ _ (fun x => i_sqrt_eq h hw hr hp E x) a d⟩

example (a b : Vec 64 8) (E : Est) : ∃ res, i_div Cfg.avx512All E .r512 a b = some res ∧ ∀ i, res i = Fp.div (a i) (b i) :=
  C52_div Cfg.avx512All_ok (.inr rfl) rfl (fun h => by cases h.1) E a b
example (a : Vec 32 4) (E : Est) : ∃ res, i_sqrt Cfg.neonA64 E .r128 a = some res ∧ ∀ i, res i = Fp.sqrt (a i) :=
  C52_sqrt Cfg.neonA64_ok (.inl rfl) rfl (by rintro ⟨-, ⟨-, h⟩ | h⟩ <;> exact absurd h (by decide)) E a

/-! ### The steps -/

/-- C52: one `rcp_rh` takes an estimate of `1 / a` with relative error `e ≤ 1/4` to one with relative error `e² + 4 · 2⁻²⁴`, on every build. -/
theorem C52_rcp_rh {c : Cfg} (h : c.Ok) {r : Reg} (hr : c.hasVec .flt 32 r = true) (x a : Vec 32 n) :
    ∃ res, i_rcp_rh c r x a = some res ∧ ∀ i (e : ℝ), isFinite (x i) = true → isFinite (a i) = true → 1 / 2 ^ 125 ≤ |real (x i)| → |real (x i)| ≤ 2 ^ 126 →
      |1 - real (x i) * real (a i)| ≤ e → e ≤ 1 / 4 →
      isFinite (res i) = true ∧ |1 - real (res i) * real (a i)| ≤ e ^ 2 + 4 / 2 ^ 24 := by
  obtain ⟨g, hg, eg⟩ := i_rcp_rh_ex h hr
  exact ⟨_, eg n x a, fun i e => hg _ _ _⟩

/-- C52: one `rsqrt_rh` takes an estimate of `1 / sqrt(a)` with relative error `e ≤ 1/8` to one with relative error `2 e² + 6 · 2⁻²⁴`, on every
build. -/
theorem C52_rsqrt_rh {c : Cfg} (h : c.Ok) {r : Reg} (hr : c.hasVec .flt 32 r = true) (x a : Vec 32 n) :
    ∃ res, i_rsqrt_rh c r x a = some res ∧ ∀ i (e : ℝ), isFinite (x i) = true → isFinite (a i) = true → 1 / 2 ^ 124 ≤ real (a i) → real (a i) ≤ 2 ^ 124 →
      |1 - real (x i) * Real.sqrt (real (a i))| ≤ e → e ≤ 1 / 8 →
      isFinite (res i) = true ∧ |1 - real (res i) * Real.sqrt (real (a i))| ≤ 2 * e ^ 2 + 6 / 2 ^ 24 := by
  obtain ⟨g, hg, eg⟩ := i_rsqrt_rh_ex h hr
  exact ⟨_, eg n x a, fun i e => hg _ _ _⟩

/-! ### Builds that multiply by an estimate -/

/-- A zero times a finite number. -/
theorem IsMul.zero {m : BitVec 32 → BitVec 32 → BitVec 32} (hm : IsMul m) {x y : BitVec 32} (fx : isFinite x = true) (fy : isFinite y = true)
    (hx : real x = 0) : isFinite (m x y) = true ∧ real (m x y) = 0 := by
  obtain ⟨nx, ix⟩ := not_nan_of_finite fx
  obtain ⟨ny, iy⟩ := not_nan_of_finite fy
  have hz : num x = 0 := real_zero_iff.1 hx
  have e : ∃ s, Fp.mul x y = mk 32 s 0 := by
    unfold Fp.mul
    simp only [nx, ny, ix, iy, hz, Bool.or_self, Bool.false_eq_true, if_false, Int.zero_mul, if_true]
    exact ⟨_, rfl⟩
  obtain ⟨s, e⟩ := e
  obtain ⟨s1, s2⟩ := same_real (hm x y)
  rw [e] at s1 s2
  refine ⟨s2 (by rw [isFinite_iff, mk_mag fw32 (by positivity)]; decide), s1.trans ?_⟩
  rw [real_zero_iff, num_mk fw32 (by positivity), numMag_zero]; simp

/-- The size of an estimate of `1 / b`. -/
theorem est_bounds {X B e : ℝ} (h1 : 1 / 2 ^ 124 ≤ |B|) (h2 : |B| ≤ 2 ^ 124) (he : |1 - X * B| ≤ e) (he2 : e ≤ 1 / 4) :
    1 / 2 ^ 125 ≤ |X| ∧ |X| ≤ 2 ^ 126 := by
  have hb := abs_le.1 (he.trans he2)
  have p0 : (0 : ℝ) < 2 ^ 124 := by positivity
  have hxb : |X| * |B| = X * B := by rw [← abs_mul, abs_of_pos (by linarith [hb.2])]
  constructor
  · have : 3 / 4 ≤ |X| * 2 ^ 124 := le_trans (by linarith [hb.2]) (mul_le_mul_of_nonneg_left h2 (abs_nonneg X))
    have := mul_le_mul_of_nonneg_right this (by positivity : (0 : ℝ) ≤ 1 / 2 ^ 124)
    have e : |X| * 2 ^ 124 * (1 / 2 ^ 124) = |X| := by field_simp
    rw [e] at this
    refine le_trans ?_ this; norm_num
  · have : |X| * (1 / 2 ^ 124) ≤ 5 / 4 := le_trans (mul_le_mul_of_nonneg_left h1 (abs_nonneg X)) (by linarith [hb.1])
    have := mul_le_mul_of_nonneg_right this p0.le
    have e : |X| * (1 / 2 ^ 124) * 2 ^ 124 = |X| := by field_simp
    rw [e] at this
    refine le_trans this ?_; norm_num

/-- Two steps from an estimate with relative error 1/128. -/
theorem rcp_two {g : BitVec 32 → BitVec 32 → BitVec 32} (hg : RcpStep g) {x b : BitVec 32} (fx : isFinite x = true) (fb : isFinite b = true)
    (h1 : 1 / 2 ^ 124 ≤ |real b|) (h2 : |real b| ≤ 2 ^ 124) (he : |1 - real x * real b| ≤ 1 / 128) :
    isFinite (g (g x b) b) = true ∧ |1 - real (g (g x b) b) * real b| ≤ 45 / 10 * ulp := by
  obtain ⟨b1, b2⟩ := est_bounds h1 h2 he (by norm_num)
  obtain ⟨f1, e1⟩ := hg x b _ fx fb b1 b2 he (by norm_num)
  have e1' : |1 - real (g x b) * real b| ≤ 1 / 16000 := e1.trans (by norm_num)
  obtain ⟨c1, c2⟩ := est_bounds h1 h2 e1' (by norm_num)
  obtain ⟨f2, e2⟩ := hg (g x b) b _ f1 fb c1 c2 e1' (by norm_num)
  refine ⟨f2, e2.trans ?_⟩
  unfold ulp
  norm_num

/-- Where division goes through the estimate, it is lane-wise the product with the twice refined estimate. -/
theorem i_div_lane {c : Cfg} (h : c.Ok) (hd : c.divByRcp 32) (E : Est) :
    ∃ m g, IsMul m ∧ RcpStep g ∧ ∀ n (a b : Vec 32 n), i_div c E .r128 a b = some (fun i => m (a i) (g (g (E.rcp (b i)) (b i)) (b i))) := by
  obtain ⟨m, hm, em⟩ := i_fmul_lane h (r := .r128) rfl
  obtain ⟨g, hg, eg⟩ := i_rcp_rh_ex h (r := .r128) rfl
  refine ⟨m, g, hm, hg, fun n a b => ?_⟩
  have hE : i_rcp_e c E .r128 b = some (fun i => E.rcp (b i)) := by
    unfold i_rcp_e
    obtain ⟨-, hd⟩ := hd
    obtain ⟨o1, o2, o3, o4, o5, o6, o7, o8, o9, o10, o11, o12, o13, o14, o15, o16, o17, o18, o19⟩ := h
    dsimp only
    split_ifs <;> first
      | rfl
      | (exfalso; simp only [Cfg.neonNoFltSp, Cfg.neon64] at *; grind)
  have hb : (do
      let x ← i_rcp_e c E .r128 b
      let x ← i_rcp_rh c .r128 x b
      let x ← i_rcp_rh c .r128 x b
      i_fmul c .r128 a x) = some (fun i => m (a i) (g (g (E.rcp (b i)) (b i)) (b i))) := by
    simp only [hE, eg, em, Option.bind_eq_bind, Option.bind_some]
  unfold i_div
  refine (dif_pos rfl).trans ?_
  obtain ⟨-, hd⟩ := hd
  split_ifs
  all_goals first
    | exact hb
    | (exfalso; obtain ⟨o1, o2, o3, o4, o5, o6, o7, o8, o9, o10, o11, o12, o13, o14, o15, o16, o17, o18, o19⟩ := h
       simp only [Cfg.neonNoFltSp, Cfg.neon64] at *; grind)

/-- C52: on the builds without a division instruction (32-bit NEON, AltiVec) the quotient has a relative error of at most `6 · 2⁻²⁴`, provided
the processor's estimate is within 1/128 and divisor and quotient stay away from the ends of the range. -/
theorem C52_div_approx {c : Cfg} (h : c.Ok) (hd : c.divByRcp 32) {E : Est} (hE : E.RcpWithin (1 / 128)) (a b : Vec 32 n) :
    ∃ res, i_div c E .r128 a b = some res ∧ ∀ i, isFinite (a i) = true → isFinite (b i) = true → 1 / 2 ^ 124 ≤ |real (b i)| → |real (b i)| ≤ 2 ^ 124 →
      real (a i) = 0 ∨ (1 / 2 ^ 125 ≤ |real (a i) / real (b i)| ∧ |real (a i) / real (b i)| ≤ 2 ^ 126) →
      isFinite (res i) = true ∧ |real (res i) - real (a i) / real (b i)| ≤ 6 / 2 ^ 24 * |real (a i) / real (b i)| := by
  obtain ⟨m, g, hm, hg, e⟩ := i_div_lane h hd E
  refine ⟨_, e n a b, fun i fa fb b1 b2 hq => ?_⟩
  obtain ⟨f0, e0⟩ := hE _ fb b1 b2
  obtain ⟨f2, e2⟩ := rcp_two hg f0 fb b1 b2 e0
  generalize g (g (E.rcp (b i)) (b i)) (b i) = x at *
  generalize a i = A at *
  generalize b i = B at *
  rcases hq with hz | ⟨q1, q2⟩
  · obtain ⟨f3, e3⟩ := hm.zero fa f2 hz
    refine ⟨f3, ?_⟩
    rw [e3, hz, zero_div]; simp
  · have hs := ulp_small
    have hu := ulp_pos
    have hB : real B ≠ 0 := fun e => by rw [e, abs_zero] at b1; exact absurd b1 (by norm_num)
    have hxa : real A * real x = real A / real B * (real x * real B) := by field_simp
    have heb := abs_le.1 e2
    have hxb1 : 9 / 10 ≤ real x * real B := by linarith [heb.2]
    have hxb2 : real x * real B ≤ 11 / 10 := by linarith [heb.1]
    have hab : |real A * real x| = |real A / real B| * (real x * real B) := by rw [hxa, abs_mul, abs_of_pos (by linarith : 0 < real x * real B)]
    obtain ⟨f3, ε, he, hr⟩ := hm.rel fa f2 (by
      rw [hab]
      have : (1 : ℝ) / 2 ^ 125 * (9 / 10) ≤ |real A / real B| * (real x * real B) := mul_le_mul q1 hxb1 (by norm_num) (abs_nonneg _)
      refine le_trans ?_ this; norm_num) (by
      rw [hab]
      have : |real A / real B| * (real x * real B) ≤ (2 : ℝ) ^ 126 * (11 / 10) := mul_le_mul q2 hxb2 (by linarith) (by norm_num)
      refine lt_of_le_of_lt this ?_; norm_num)
    refine ⟨f3, ?_⟩
    have hd : real (m A x) - real A / real B = real A / real B * ((real x * real B) * (1 + ε) - 1) := by
      rw [hr, hxa]; ring
    rw [hd, abs_mul, mul_comm]
    refine mul_le_mul_of_nonneg_right ?_ (abs_nonneg _)
    have hk : |(real x * real B) * ε| ≤ 11 / 10 * ulp := by
      rw [abs_mul, abs_of_pos (by linarith : 0 < real x * real B)]
      exact mul_le_mul hxb2 he (abs_nonneg _) (by norm_num)
    have hkb := abs_le.1 hk
    have : 6 / 2 ^ 24 = 6 * ulp := by unfold ulp; norm_num
    rw [this, abs_le]
    constructor <;> nlinarith [heb.1, heb.2, hkb.1, hkb.2]

/-- Where the square root goes through the estimate, it is lane-wise the product with the once refined estimate. -/
theorem i_sqrt_lane {c : Cfg} (h : c.Ok) (hd : c.sqrtByRsqrt 32) (E : Est) :
    ∃ m g, IsMul m ∧ RsqrtStep g ∧ ∀ n (a : Vec 32 n), i_sqrt c E .r128 a = some (fun i => m (a i) (g (E.rsqrt (a i)) (a i))) := by
  obtain ⟨m, hm, em⟩ := i_fmul_lane h (r := .r128) rfl
  obtain ⟨g, hg, eg⟩ := i_rsqrt_rh_ex h (r := .r128) rfl
  refine ⟨m, g, hm, hg, fun n a => ?_⟩
  have hE : i_rsqrt_e c E .r128 a = some (fun i => E.rsqrt (a i)) := by
    unfold i_rsqrt_e
    obtain ⟨-, hd⟩ := hd
    obtain ⟨o1, o2, o3, o4, o5, o6, o7, o8, o9, o10, o11, o12, o13, o14, o15, o16, o17, o18, o19⟩ := h
    dsimp only
    split_ifs <;> first
      | rfl
      | (exfalso; simp only [Cfg.neonNoFltSp, Cfg.neon64] at *; grind)
  have hb : (do
      let x ← i_rsqrt_e c E .r128 a
      let x ← i_rsqrt_rh c .r128 x a
      i_fmul c .r128 a x) = some (fun i => m (a i) (g (E.rsqrt (a i)) (a i))) := by
    simp only [hE, eg, em, Option.bind_eq_bind, Option.bind_some]
  unfold i_sqrt
  refine (dif_pos rfl).trans ?_
  obtain ⟨-, hd⟩ := hd
  split_ifs
  all_goals first
    | exact hb
    | (exfalso; obtain ⟨o1, o2, o3, o4, o5, o6, o7, o8, o9, o10, o11, o12, o13, o14, o15, o16, o17, o18, o19⟩ := h
       simp only [Cfg.neonNoFltSp, Cfg.neon64] at *; grind)

/-- C52: on the builds that compute the square root from the estimate (32-bit NEON, AltiVec with and without VSX) the root of a positive
number away from the ends of the range has a relative error of at most `2 δ² + 8 · 2⁻²⁴`, where `δ ≤ 1/8` bounds that of the estimate. -/
theorem C52_sqrt_approx {c : Cfg} (h : c.Ok) (hd : c.sqrtByRsqrt 32) {E : Est} {δ : ℝ} (hE : E.RsqrtWithin δ) (hδ : δ ≤ 1 / 8) (a : Vec 32 n) :
    ∃ res, i_sqrt c E .r128 a = some res ∧ ∀ i, isFinite (a i) = true → 1 / 2 ^ 124 ≤ real (a i) → real (a i) ≤ 2 ^ 124 →
      isFinite (res i) = true ∧ |real (res i) - Real.sqrt (real (a i))| ≤ (2 * δ ^ 2 + 8 / 2 ^ 24) * Real.sqrt (real (a i)) := by
  obtain ⟨m, g, hm, hg, e⟩ := i_sqrt_lane h hd E
  refine ⟨_, e n a, fun i fa a1 a2 => ?_⟩
  obtain ⟨f0, e0⟩ := hE _ fa a1 a2
  obtain ⟨f1, e1⟩ := hg _ _ _ f0 fa a1 a2 e0 hδ
  generalize g (E.rsqrt (a i)) (a i) = x at *
  generalize a i = A at *
  obtain ⟨s0, s1, s2, s3⟩ := sqrt_bounds a1 a2
  have hs := ulp_small
  have hu := ulp_pos
  have hδ0 : 0 ≤ δ := le_trans (abs_nonneg _) e0
  have hu6 : (6 : ℝ) / 2 ^ 24 = 6 * ulp := by unfold ulp; norm_num
  have hu8 : (8 : ℝ) / 2 ^ 24 = 8 * ulp := by unfold ulp; norm_num
  rw [hu6] at e1
  rw [hu8]
  have hδ2 : δ ^ 2 ≤ 1 / 64 := by nlinarith
  have heb := abs_le.1 e1
  have hx1 : 9 / 10 ≤ real x * Real.sqrt (real A) := by linarith [heb.2]
  have hx2 : real x * Real.sqrt (real A) ≤ 11 / 10 := by linarith [heb.1]
  have hax : real A * real x = Real.sqrt (real A) * (real x * Real.sqrt (real A)) := by
    calc real A * real x = (Real.sqrt (real A) * Real.sqrt (real A)) * real x := by rw [s1]
      _ = _ := by ring
  have c1 : 1 / 2 ^ 62 * (9 / 10) ≤ real A * real x := by rw [hax]; exact mul_le_mul s2 hx1 (by norm_num) s0.le
  have c2 : real A * real x ≤ 2 ^ 62 * (11 / 10) := by rw [hax]; exact mul_le_mul s3 hx2 (by linarith) (by norm_num)
  have c0 : 0 < real A * real x := lt_of_lt_of_le (by norm_num) c1
  obtain ⟨f3, ε, he, hr⟩ := hm.rel fa f1 (by rw [abs_of_pos c0]; refine le_trans ?_ c1; norm_num)
    (by rw [abs_of_pos c0]; refine lt_of_le_of_lt c2 ?_; norm_num)
  refine ⟨f3, ?_⟩
  have hd : real (m A x) - Real.sqrt (real A) = ((real x * Real.sqrt (real A)) * (1 + ε) - 1) * Real.sqrt (real A) := by
    rw [hr, hax]; ring
  rw [hd, abs_mul, abs_of_pos s0]
  refine mul_le_mul_of_nonneg_right ?_ s0.le
  have hk : |(real x * Real.sqrt (real A)) * ε| ≤ 11 / 10 * ulp := by
    rw [abs_mul, abs_of_pos (by linarith : 0 < real x * Real.sqrt (real A))]
    exact mul_le_mul hx2 he (abs_nonneg _) (by norm_num)
  have hkb := abs_le.1 hk
  rw [abs_le]
  constructor <;> nlinarith [heb.1, heb.2, hkb.1, hkb.2]

/-! ### The estimates -/

/-- Rounding an integer that stands for `v`. -/
theorem sticky_rel {v : ℝ} {z : Int} (h : Sticky (4 * v * 2 ^ unit 32) z) (h1 : 1 / 2 ^ 125 ≤ |v|) (h2 : |v| ≤ 2 ^ 126) :
    isFinite (Fp.round 32 2 z) = true ∧ ∃ ε : ℝ, |ε| ≤ 2 * ulp ∧ real (Fp.round 32 2 z) = v * (1 + ε) := by
  have hu := ulp_pos
  have hs := ulp_small
  have hv0 : v ≠ 0 := fun e => by rw [e, abs_zero] at h1; exact absurd h1 (by norm_num)
  have e151 : 4 * v * 2 ^ unit 32 = v * 2 ^ 151 := by rw [show unit 32 = 149 from rfl]; ring
  rw [e151] at h
  have hz : |(z : ℝ) - v * 2 ^ 151| ≤ 1 := by
    rcases h with h | ⟨-, a, b⟩
    · rw [h, sub_self, abs_zero]; norm_num
    · rw [abs_le]; constructor <;> linarith
  have hp : (2 : ℝ) ^ 151 ≠ 0 := by positivity
  -- the relative error of `z`
  have hd : ∃ d : ℝ, |d| ≤ 1 / 4 * ulp ∧ (z : ℝ) = v * (1 + d) * 2 ^ (149 + 2) := by
    refine ⟨((z : ℝ) - v * 2 ^ 151) / (v * 2 ^ 151), ?_, by norm_num; field_simp; ring⟩
    rw [abs_div, abs_mul, abs_of_pos (by positivity : (0 : ℝ) < 2 ^ 151)]
    have hq : (2 : ℝ) ^ 26 ≤ |v| * 2 ^ 151 := by
      have := mul_le_mul_of_nonneg_right h1 (by positivity : (0 : ℝ) ≤ 2 ^ 151)
      refine le_trans ?_ this; norm_num
    rw [div_le_iff₀ (by positivity)]
    refine hz.trans (le_trans ?_ (mul_le_mul_of_nonneg_left hq (by linarith)))
    unfold ulp; norm_num
  obtain ⟨d, d1, d2⟩ := hd
  have db := abs_le.1 d1
  have hab : |v * (1 + d)| = |v| * (1 + d) := by rw [abs_mul, abs_of_pos (by linarith : 0 < 1 + d)]
  obtain ⟨hf, ε, he, hr⟩ := round_real d2 (Or.inr (by
    rw [hab]
    have : (1 : ℝ) / 2 ^ 125 * (9 / 10) ≤ |v| * (1 + d) := mul_le_mul h1 (by linarith) (by norm_num) (abs_nonneg _)
    refine le_trans ?_ this; norm_num)) (by
    rw [hab]
    have : |v| * (1 + d) ≤ 2 ^ 126 * (11 / 10) := mul_le_mul h2 (by linarith) (by linarith) (by norm_num)
    refine lt_of_le_of_lt this ?_; norm_num)
  obtain ⟨θ, hθ, eθ⟩ := comb_eps d1 he (by linarith)
  exact ⟨hf, θ, by linarith, by rw [hr, ← eθ]; ring⟩

theorem div_rel {x y : BitVec 32} (fx : isFinite x = true) (fy : isFinite y = true) (h1 : 1 / 2 ^ 125 ≤ |real x / real y|) (h2 : |real x / real y| ≤ 2 ^ 126) :
    isFinite (Fp.div x y) = true ∧ ∃ ε : ℝ, |ε| ≤ 2 * ulp ∧ real (Fp.div x y) = real x / real y * (1 + ε) := by
  have h0 : real x / real y ≠ 0 := fun e => by rw [e, abs_zero] at h1; exact absurd h1 (by norm_num)
  obtain ⟨z, hz, e⟩ := div_sticky fw32 fx fy (fun e => h0 (by rw [real_zero_iff.2 e, div_zero])) (fun e => h0 (by rw [real_zero_iff.2 e, zero_div]))
  rw [e]
  exact sticky_rel hz h1 h2

theorem sqrt_rel {x : BitVec 32} (fx : isFinite x = true) (h1 : 1 / 2 ^ 124 ≤ real x) (h2 : real x ≤ 2 ^ 124) :
    isFinite (Fp.sqrt x) = true ∧ ∃ ε : ℝ, |ε| ≤ 2 * ulp ∧ real (Fp.sqrt x) = Real.sqrt (real x) * (1 + ε) := by
  obtain ⟨s0, -, s2, s3⟩ := sqrt_bounds h1 h2
  obtain ⟨z, hz, e⟩ := sqrt_sticky fx (lt_of_lt_of_le (by positivity) h1)
  rw [e]
  exact sticky_rel hz (by rw [abs_of_pos s0]; refine le_trans ?_ s2; norm_num) (by rw [abs_of_pos s0]; refine s3.trans ?_; norm_num)

theorem fin_1 : isFinite f32_1 = true := by decide

/-- The quotient `1 / b` as the portable build computes it. -/
theorem rcp_exact {b : BitVec 32} (fb : isFinite b = true) (h1 : 1 / 2 ^ 124 ≤ |real b|) (h2 : |real b| ≤ 2 ^ 124) :
    isFinite (Fp.div f32_1 b) = true ∧ |1 - real (Fp.div f32_1 b) * real b| ≤ 2 * ulp := by
  have hb : real b ≠ 0 := fun e => by rw [e, abs_zero] at h1; exact absurd h1 (by norm_num)
  have hi : |real f32_1 / real b| = 1 / |real b| := by rw [real_1, abs_div, abs_one]
  have hp : 0 < |real b| := abs_pos.2 hb
  obtain ⟨hf, ε, he, hr⟩ := div_rel fin_1 fb (by
    rw [hi, le_div_iff₀ hp]
    refine (mul_le_mul_of_nonneg_left h2 (by positivity)).trans ?_; norm_num) (by
    rw [hi, div_le_iff₀ hp]
    refine le_trans ?_ (mul_le_mul_of_nonneg_left h1 (by positivity)); norm_num)
  refine ⟨hf, ?_⟩
  have e : 1 - real (Fp.div f32_1 b) * real b = -ε := by rw [hr, real_1]; field_simp; ring
  rw [e, abs_neg]; exact he

/-- `1 / sqrt(a)` as the portable build computes it. -/
theorem rsqrt_exact {a : BitVec 32} (fa : isFinite a = true) (h1 : 1 / 2 ^ 124 ≤ real a) (h2 : real a ≤ 2 ^ 124) :
    isFinite (Fp.div f32_1 (Fp.sqrt a)) = true ∧ |1 - real (Fp.div f32_1 (Fp.sqrt a)) * Real.sqrt (real a)| ≤ 5 * ulp := by
  have hu := ulp_pos
  have hs := ulp_small
  obtain ⟨s0, -, s2, s3⟩ := sqrt_bounds h1 h2
  obtain ⟨f1, ε1, k1, r1⟩ := sqrt_rel fa h1 h2
  have kb := abs_le.1 k1
  have q1 : 1 / 2 ^ 62 * (9 / 10) ≤ real (Fp.sqrt a) := by rw [r1]; exact mul_le_mul s2 (by linarith) (by norm_num) s0.le
  have q2 : real (Fp.sqrt a) ≤ 2 ^ 62 * (11 / 10) := by rw [r1]; exact mul_le_mul s3 (by linarith) (by linarith) (by norm_num)
  have q0 : 0 < real (Fp.sqrt a) := lt_of_lt_of_le (by norm_num) q1
  obtain ⟨f2, e2⟩ := rcp_exact f1 (by rw [abs_of_pos q0]; refine le_trans ?_ q1; norm_num) (by rw [abs_of_pos q0]; refine q2.trans ?_; norm_num)
  refine ⟨f2, ?_⟩
  generalize real (Fp.div f32_1 (Fp.sqrt a)) = X at *
  have eb := abs_le.1 e2
  have h0 : 0 < 1 + ε1 := by linarith
  have hy : X * Real.sqrt (real a) * (1 + ε1) = X * real (Fp.sqrt a) := by rw [r1]; ring
  generalize X * Real.sqrt (real a) = Y at *
  have y1 : Y ≤ 2 := by
    by_contra hc
    nlinarith
  have y2 : 0 ≤ Y := by
    by_contra hc
    nlinarith
  have hk : |Y * ε1| ≤ 2 * (2 * ulp) := by rw [abs_mul, abs_of_nonneg y2]; exact mul_le_mul y1 k1 (abs_nonneg _) (by norm_num)
  have y3 : Y ≤ 101 / 100 := by nlinarith [abs_le.1 hk]
  have hk : |Y * ε1| ≤ 101 / 100 * (2 * ulp) := by rw [abs_mul, abs_of_nonneg y2]; exact mul_le_mul y3 k1 (abs_nonneg _) (by norm_num)
  have hkb := abs_le.1 hk
  rw [abs_le]
  constructor <;> linarith [eb.1, eb.2, hkb.1, hkb.2]

/-- C52: `rcp_e` and `rsqrt_e` are as accurate as the processor's estimates where those are used, and accurate to `2 · 2⁻²⁴` and `5 · 2⁻²⁴`
where they are computed by a division. -/
theorem C52_estimates {c : Cfg} (h : c.Ok) {r : Reg} (hr : c.hasVec .flt 32 r = true) {E : Est} {δ : ℝ} (hδ : 5 / 2 ^ 24 ≤ δ)
    (h1 : E.RcpWithin δ) (h2 : E.RsqrtWithin δ) (a : Vec 32 n) :
    ∃ x y, i_rcp_e c E r a = some x ∧ i_rsqrt_e c E r a = some y ∧ ∀ i, isFinite (a i) = true →
      (1 / 2 ^ 124 ≤ |real (a i)| → |real (a i)| ≤ 2 ^ 124 → isFinite (x i) = true ∧ |1 - real (x i) * real (a i)| ≤ δ) ∧
      (1 / 2 ^ 124 ≤ real (a i) → real (a i) ≤ 2 ^ 124 → isFinite (y i) = true ∧ |1 - real (y i) * Real.sqrt (real (a i))| ≤ δ) := by
  have hu := ulp_pos
  have h5 : 5 * ulp ≤ δ := by refine le_trans (le_of_eq ?_) hδ; unfold ulp; norm_num
  have p1 : ∀ i, isFinite (a i) = true →
      (1 / 2 ^ 124 ≤ |real (a i)| → |real (a i)| ≤ 2 ^ 124 → isFinite (Fp.div f32_1 (a i)) = true ∧ |1 - real (Fp.div f32_1 (a i)) * real (a i)| ≤ δ) ∧
      (1 / 2 ^ 124 ≤ real (a i) → real (a i) ≤ 2 ^ 124 →
        isFinite (Fp.div f32_1 (Fp.sqrt (a i))) = true ∧ |1 - real (Fp.div f32_1 (Fp.sqrt (a i))) * Real.sqrt (real (a i))| ≤ δ) :=
    fun i fa => ⟨fun b1 b2 => (rcp_exact fa b1 b2).imp_right fun e => e.trans (by linarith), fun b1 b2 => (rsqrt_exact fa b1 b2).imp_right fun e => e.trans h5⟩
  have p2 : ∀ i, isFinite (a i) = true →
      (1 / 2 ^ 124 ≤ |real (a i)| → |real (a i)| ≤ 2 ^ 124 → isFinite (E.rcp (a i)) = true ∧ |1 - real (E.rcp (a i)) * real (a i)| ≤ δ) ∧
      (1 / 2 ^ 124 ≤ real (a i) → real (a i) ≤ 2 ^ 124 → isFinite (E.rsqrt (a i)) = true ∧ |1 - real (E.rsqrt (a i)) * Real.sqrt (real (a i))| ≤ δ) :=
    fun i fa => ⟨fun b1 b2 => h1 _ fa b1 b2, fun b1 b2 => h2 _ fa b1 b2⟩
  unfold i_rcp_e i_rsqrt_e
  cases r <;> dsimp only <;> split_ifs <;> first
    | exact ⟨_, _, rfl, rfl, p1⟩
    | exact ⟨_, _, rfl, rfl, p2⟩
    | (exfalso; cfg_absurd h)

/-- The estimates of a processor that computes them exactly, an instance of the assumptions. -/
def Est.exact : Est := ⟨fun b => Fp.div f32_1 b, fun a => Fp.div f32_1 (Fp.sqrt a)⟩

theorem Est.exact_rcp : Est.exact.RcpWithin (1 / 128) := fun b fb h1 h2 =>
  (rcp_exact fb h1 h2).imp_right fun e => e.trans (by have := ulp_small; linarith)
theorem Est.exact_rsqrt : Est.exact.RsqrtWithin (1 / 128) := fun a fa h1 h2 =>
  (rsqrt_exact fa h1 h2).imp_right fun e => e.trans (by have := ulp_small; linarith)

/-- 32-bit NEON with the floating-point unit. -/
def Cfg.neonA32 : Cfg := { Cfg.neonA64 with bits64 := false }
theorem Cfg.neonA32_ok : Cfg.neonA32.Ok := by constructor <;> decide

example (a b : Vec 32 4) : ∃ res, i_div Cfg.neonA32 Est.exact .r128 a b = some res ∧ ∀ i, isFinite (a i) = true → isFinite (b i) = true →
    1 / 2 ^ 124 ≤ |real (b i)| → |real (b i)| ≤ 2 ^ 124 → real (a i) = 0 ∨ (1 / 2 ^ 125 ≤ |real (a i) / real (b i)| ∧ |real (a i) / real (b i)| ≤ 2 ^ 126) →
    isFinite (res i) = true ∧ |real (res i) - real (a i) / real (b i)| ≤ 6 / 2 ^ 24 * |real (a i) / real (b i)| :=
  C52_div_approx Cfg.neonA32_ok ⟨rfl, .inl ⟨rfl, rfl⟩⟩ Est.exact_rcp a b
example (a : Vec 32 4) : ∃ res, i_sqrt Cfg.vsx207Only Est.exact .r128 a = some res ∧ ∀ i, isFinite (a i) = true → 1 / 2 ^ 124 ≤ real (a i) →
    real (a i) ≤ 2 ^ 124 → isFinite (res i) = true ∧ |real (res i) - Real.sqrt (real (a i))| ≤ (2 * (1 / 128) ^ 2 + 8 / 2 ^ 24) * Real.sqrt (real (a i)) :=
  C52_sqrt_approx (by constructor <;> decide) ⟨rfl, .inr rfl⟩ Est.exact_rsqrt (by norm_num) a

/-! ### What the approximate builds get wrong -/

theorem fma_nan (a z : BitVec 32) : Fp.fma a (nan 32) z = nan 32 := by
  unfold Fp.fma
  rw [show isNaN (nan 32) = true by decide]; simp

theorem mul_nan (a : BitVec 32) : Fp.mul a (nan 32) = nan 32 := by
  unfold Fp.mul
  rw [show isNaN (nan 32) = true by decide]; simp

/-- C52, where it does not extend to special values: AltiVec without VSX divides every number by zero or by an infinity to NaN, provided its
estimate of `1 / 0` is an infinity and that of `1 / inf` is zero. -/
theorem C52_div_altivec_special {c : Cfg} (h : c.Ok) (h1 : c.altivec = true) (h2 : c.vsx206 = false) {E : Est} (e0 : E.rcp 0#32 = 0x7f800000#32)
    (e1 : E.rcp 0x7f800000#32 = 0#32) (a b : Vec 32 n) :
    ∃ res, i_div c E .r128 a b = some res ∧ ∀ i, b i = 0#32 ∨ b i = 0x7f800000#32 → isNaN (res i) = true := by
  have hm : ∀ x y : Vec 32 n, i_fmul c .r128 x y = some (fun i => Fp.fma (x i) (y i) 0) := fun x y => by
    unfold i_fmul
    refine (if_pos rfl).trans ?_
    split_ifs <;> first | rfl | (exfalso; cfg_absurd h)
  have hE : i_rcp_e c E .r128 b = some (fun i => E.rcp (b i)) := by
    unfold i_rcp_e
    dsimp only
    split_ifs <;> first | rfl | (exfalso; cfg_absurd h)
  have hg : ∀ x : Vec 32 n, i_rcp_rh c .r128 x b = some (fun i => Fp.fma (x i) (Hw.nmsub (x i) (b i) f32_2) 0) := fun x => by
    unfold i_rcp_rh
    dsimp only
    split_ifs <;> first | exact hm _ _ | (exfalso; cfg_absurd h)
  have hb : (do
      let x ← i_rcp_e c E .r128 b
      let x ← i_rcp_rh c .r128 x b
      let x ← i_rcp_rh c .r128 x b
      i_fmul c .r128 a x) = some (fun i => Fp.fma (a i) (Fp.fma (Fp.fma (E.rcp (b i)) (Hw.nmsub (E.rcp (b i)) (b i) f32_2) 0)
        (Hw.nmsub (Fp.fma (E.rcp (b i)) (Hw.nmsub (E.rcp (b i)) (b i) f32_2) 0) (b i) f32_2) 0) 0) := by
    simp only [hE, hg, hm, Option.bind_eq_bind, Option.bind_some]
  refine ⟨_, Eq.trans ?_ hb, fun i hi => ?_⟩
  · unfold i_div
    refine (dif_pos rfl).trans ?_
    split_ifs <;> first | rfl | (exfalso; cfg_absurd h)
  · have k1 : Hw.nmsub 0x7f800000#32 0#32 f32_2 = nan 32 := by decide +kernel
    have k2 : Hw.nmsub 0#32 0x7f800000#32 f32_2 = nan 32 := by decide +kernel
    have k3 : Hw.nmsub (nan 32) 0#32 f32_2 = nan 32 := by decide +kernel
    have k4 : Hw.nmsub (nan 32) 0x7f800000#32 f32_2 = nan 32 := by decide +kernel
    rcases hi with hi | hi
    · rw [hi, e0, k1, fma_nan, k3, fma_nan, fma_nan]; decide
    · rw [hi, e1, k2, fma_nan, k4, fma_nan, fma_nan]; decide

theorem i_fmul_lane2 {c : Cfg} (h : c.Ok) :
    ∃ m, (m = Fp.mul ∨ m = fun x y => Fp.fma x y 0) ∧ ∀ n (a b : Vec 32 n), i_fmul c .r128 a b = some (fun i => m (a i) (b i)) := by
  by_cases hp : c.mulByFma 32 .r128
  · refine ⟨_, .inr rfl, fun n a b => ?_⟩
    obtain ⟨-, e2, e3, e4⟩ := hp
    unfold i_fmul
    refine (if_pos rfl).trans ?_
    split_ifs <;> first | rfl | (exfalso; cfg_absurd h)
  · exact ⟨_, .inl rfl, fun n a b => i_fmul_eq h rfl hp a b⟩

attribute [local irreducible] Hw.vrsqrts Hw.nmsub

/-- The square root in terms of the product, for the builds that use the estimate. -/
theorem i_sqrt_lane2 {c : Cfg} (h : c.Ok) (hd : c.sqrtByRsqrt 32) (E : Est) :
    ∃ m, (m = Fp.mul ∨ m = fun x y => Fp.fma x y 0) ∧ ∀ n (a : Vec 32 n),
      i_sqrt c E .r128 a = some (fun i => if c.neon then m (a i) (m (E.rsqrt (a i)) (Hw.vrsqrts false (a i) (m (E.rsqrt (a i)) (E.rsqrt (a i)))))
        else m (a i) (m (m (E.rsqrt (a i)) f32_half) (Hw.nmsub (a i) (m (E.rsqrt (a i)) (E.rsqrt (a i))) f32_3))) := by
  obtain ⟨m, hm, em⟩ := i_fmul_lane2 h
  refine ⟨m, hm, fun n a => ?_⟩
  obtain ⟨-, hd⟩ := hd
  have hf : c.null = false ∧ c.sse2 = false ∧ c.msa = false ∧ c.neonNoFltSp = false ∧ c.neon64 = false ∧ c.neonFltSp = c.neon ∧ (c.neon = false → c.altivec = true) := by
    clear em hm
    obtain ⟨o1, o2, o3, o4, o5, o6, o7, o8, o9, o10, o11, o12, o13, o14, o15, o16, o17, o18, o19⟩ := h
    simp only [Cfg.neonNoFltSp, Cfg.neon64] at *
    grind
  obtain ⟨f1, f2, f3, f4, f5, f6, f7⟩ := hf
  clear hd h hm
  unfold i_sqrt
  refine (dif_pos rfl).trans ?_
  cases hn : c.neon
  · have f8 := f7 hn
    rw [hn] at f6
    simp only [i_rsqrt_e, i_rsqrt_rh, f1, f2, f3, f4, f5, f6, f8, Bool.false_eq_true, or_self, if_false, if_true, or_true, em, Option.bind_eq_bind, Option.bind_some]
    rfl
  · rw [hn] at f6
    simp only [i_rsqrt_e, i_rsqrt_rh, f1, f2, f3, f4, f5, f6, Bool.false_eq_true, or_self, if_false, if_true, true_or, em, Option.bind_eq_bind, Option.bind_some]

/-- C52, where it does not extend to special values: the square root of zero and of infinity is NaN on the builds that use the estimate,
provided that of zero is an infinity and that of infinity is zero. -/
theorem C52_sqrt_special {c : Cfg} (h : c.Ok) (hd : c.sqrtByRsqrt 32) {E : Est} (e0 : E.rsqrt 0#32 = 0x7f800000#32)
    (e1 : E.rsqrt 0x7f800000#32 = 0#32) (a : Vec 32 n) :
    ∃ res, i_sqrt c E .r128 a = some res ∧ ∀ i, a i = 0#32 ∨ a i = 0x7f800000#32 → isNaN (res i) = true := by
  obtain ⟨m, hm, e⟩ := i_sqrt_lane2 h hd E
  refine ⟨_, e n a, fun i hi => ?_⟩
  rcases hi with hi | hi
  · rw [hi, e0]; rcases hm with rfl | rfl <;> cases c.neon <;> decide +kernel
  · rw [hi, e1]; rcases hm with rfl | rfl <;> cases c.neon <;> decide +kernel

/-- C52, where the bound is met: 32-bit NEON's estimate at 1 is 511/512, which makes `sqrt(1)` come out 96 units in the last place below 1. -/
theorem C52_sqrt_one_neon32 {c : Cfg} (h : c.Ok) (h1 : c.neonFltSp = true) (h2 : c.neon64 = false) {E : Est} (e1 : E.rsqrt f32_1 = 0x3f7f8000#32)
    (a : Vec 32 n) : ∃ res, i_sqrt c E .r128 a = some res ∧ ∀ i, a i = f32_1 → res i = 0x3f7fffa0#32 := by
  have hn : c.neon = true := by
    obtain ⟨o1, o2, o3, o4, o5, o6, o7, o8, o9, o10, o11, o12, o13, o14, o15, o16, o17, o18, o19⟩ := h
    grind
  obtain ⟨m, hm, e⟩ := i_sqrt_lane2 h ⟨rfl, .inl ⟨h1, h2⟩⟩ E
  refine ⟨_, e n a, fun i hi => ?_⟩
  rw [hi, e1, hn]
  rcases hm with rfl | rfl <;> decide +kernel

end Simdpp
