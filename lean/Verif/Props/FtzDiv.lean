import Verif.Model.FtzDiv
import Verif.Props.FDiv
import Verif.Props.FtzSame

/-!
# C68: division and square root where the unit flushes to zero
-/

namespace Simdpp
open Spec Spec.Fp Spec.Flt Spec.Ftz

variable {n : Nat}

attribute [local irreducible] Fp.mul Fp.fma Fp.sub Fp.add Fp.round Fp.div Fp.sqrt

theorem tiny32 : tiny 32 = 1 / 2 ^ 126 := by unfold tiny; rw [if_pos rfl]

theorem norm_of {x : BitVec 32} (h : 1 / 2 ^ 126 ≤ |real x|) : ¬ Subnormal x := fun s => by
  have := real_tiny (w := 32) fw32 s.2
  rw [tiny32] at this
  exact absurd h (not_le.2 this)

/-- A product in the normal range of normal numbers is not flushed. -/
theorem zmul_same {x y : BitVec 32} (hx : 1 / 2 ^ 126 ≤ |real x|) (hy : 1 / 2 ^ 126 ≤ |real y|) (h : 1 / 2 ^ 126 ≤ |real x * real y|) :
    Ftz.mul x y = Fp.mul x y := by
  unfold Ftz.mul
  rw [flush_of (norm_of hx), flush_of (norm_of hy), if_neg]
  rintro ⟨-, -, g⟩
  have h1 : (0 : ℝ) < 2 ^ unit 32 := by positivity
  have h2 : |((num x * num y : Int) : ℝ)| < 2 ^ (prec 32 - 1 + unit 32) := by
    have e : |((num x * num y : Int) : ℝ)| = (((num x * num y).natAbs : ℕ) : ℝ) := by rw [Nat.cast_natAbs]; push_cast; rfl
    rw [e]
    exact_mod_cast g
  push_cast at h2
  rw [real_eqW, real_eqW, pow_add, ← tiny_unit fw32] at h2
  have e : real x * 2 ^ unit 32 * (real y * 2 ^ unit 32) = real x * real y * (2 ^ unit 32 * 2 ^ unit 32) := by ring
  rw [e, abs_mul, abs_of_pos (mul_pos h1 h1), mul_assoc] at h2
  have := lt_of_mul_lt_mul_right h2 (mul_pos h1 h1).le
  rw [tiny32] at this
  exact absurd h (not_le.2 this)

theorem le_numMag (w M : Nat) : M ≤ numMag w M := by
  induction M with
  | zero => exact Nat.zero_le _
  | succ M ih => exact lt_of_le_of_lt ih (numMag_succ w M)

theorem num_ge_of_mag {x : BitVec 32} (h : 2 ^ (prec 32 - 1) ≤ mag x) : 2 ^ (prec 32 - 1) ≤ (num x).natAbs := by
  rw [num_natAbs]; exact h.trans (le_numMag _ _)

/-- A product below the normal range is a zero. -/
theorem zmul_lost {x y : BitVec 32} (fx : isFinite x = true) (fy : isFinite y = true) (h : |real x| < 1 / 2 ^ 126 ∨ |real x * real y| < 1 / 2 ^ 126) :
    Ftz.mul x y = mk 32 (x.msb != y.msb) 0 := by
  unfold Ftz.mul
  refine if_pos ⟨fx, fy, ?_⟩
  rw [num_flush fw32, num_flush fw32]
  split_ifs with g1 g2 g2
  · decide +kernel
  · rw [Int.zero_mul]; decide +kernel
  · rw [Int.mul_zero]; decide +kernel
  · have hx : ¬ |real x| < 1 / 2 ^ 126 := fun q => by
      have q1 := g1
      have h2 : (2 : ℝ) ^ (prec 32 - 1) ≤ |(num x : ℝ)| := by
        have e : |(num x : ℝ)| = (((num x).natAbs : ℕ) : ℝ) := by rw [Nat.cast_natAbs]; push_cast; rfl
        rw [e]
        have := num_ge_of_mag (not_lt.1 q1)
        exact_mod_cast this
      rw [real_eqW, ← tiny_unit fw32, abs_mul, abs_of_pos (by positivity : (0 : ℝ) < 2 ^ unit 32), tiny32] at h2
      exact absurd (le_of_mul_le_mul_right h2 (by positivity)) (not_le.2 q)
    have h := h.resolve_left hx
    have h1 : (0 : ℝ) < 2 ^ unit 32 := by positivity
    have h2 : |((num x * num y : Int) : ℝ)| < 2 ^ (prec 32 - 1 + unit 32) := by
      push_cast
      rw [real_eqW, real_eqW, pow_add, ← tiny_unit fw32]
      have e : real x * 2 ^ unit 32 * (real y * 2 ^ unit 32) = real x * real y * (2 ^ unit 32 * 2 ^ unit 32) := by ring
      rw [e, abs_mul, abs_of_pos (mul_pos h1 h1), mul_assoc, tiny32]
      exact mul_lt_mul_of_pos_right h (mul_pos h1 h1)
    have e : |((num x * num y : Int) : ℝ)| = (((num x * num y).natAbs : ℕ) : ℝ) := by rw [Nat.cast_natAbs]; push_cast; rfl
    rw [e] at h2
    exact_mod_cast h2

theorem zsub_same {x y : BitVec 32} (hx : 1 / 2 ^ 126 ≤ |real x|) (hy : 1 / 2 ^ 126 ≤ |real y|) (h : 1 / 2 ^ 126 ≤ |real (Fp.sub x y)|) :
    Ftz.sub x y = Fp.sub x y := by
  unfold Ftz.sub
  rw [flush_of (norm_of hx), flush_of (norm_of hy), flush_of (norm_of h)]

theorem ge_norm {v u : ℝ} (h : u ≤ v) (hu : 1 / 2 ^ 126 ≤ u) : 1 / 2 ^ 126 ≤ |v| := hu.trans (h.trans (le_abs_self v))

/-! ## The step for `1 / b` -/

/-- The step with IEEE arithmetic. -/
def rcpG (x b : BitVec 32) : BitVec 32 := Fp.mul x (Hw.vrecps false b x)
/-- The step of the unit. -/
def rcpZ (x b : BitVec 32) : BitVec 32 := Ftz.mul x (Hw.zrecps b x)

theorem rcpG_step : RcpStep rcpG := rcpStep_of isMul_mul fun _ _ fx fa hh => tm_vrecps fx fa hh false

theorem rcp_same {x b : BitVec 32} (fx : isFinite x = true) (fb : isFinite b = true) (h1 : 1 / 2 ^ 124 ≤ |real b|) (h2 : 1 / 2 ^ 125 ≤ |real x|)
    (he : |1 - real x * real b| ≤ 1 / 4) : rcpZ x b = rcpG x b := by
  have nx : 1 / 2 ^ 126 ≤ |real x| := le_trans (by norm_num) h2
  have nb : 1 / 2 ^ 126 ≤ |real b| := le_trans (by norm_num) h1
  obtain ⟨b1, b2⟩ := xa_bounds he
  have hs := ulp_small
  have hp : (1 : ℝ) / 2 ^ 126 ≤ 1 / 2 := by norm_num
  have eb : real b * real x = real x * real b := mul_comm _ _
  have g1 : 1 / 2 ^ 126 ≤ |real b * real x| := by rw [eb]; exact ge_norm b1 (by linarith)
  have m1 := zmul_same nb nx g1
  obtain ⟨f1, ε, k1, r1⟩ := mul_rel fb fx g1 (by
    rw [eb, abs_of_pos (by linarith)]
    refine lt_of_le_of_lt b2 ?_; norm_num)
  have kb := abs_le.1 k1
  obtain ⟨c1, c2⟩ : 7 / 10 ≤ real (Fp.mul b x) ∧ real (Fp.mul b x) ≤ 13 / 10 := by
    rw [r1, eb]; constructor <;> nlinarith
  have hi : Hw.infZero (flush b) (flush x) = false := by rw [flush_of (norm_of nb), flush_of (norm_of nx)]; exact infZero_false fx fb
  obtain ⟨ft, e1, e2, k2, k3, rt⟩ := tm_vrecps fx fb he false
  have q1 := abs_le.1 k2
  have q2 := abs_le.1 k3
  have hp1 : 7 / 10 ≤ 2 - real x * real b * (1 + e1) ∧ 2 - real x * real b * (1 + e1) ≤ 13 / 10 := by constructor <;> nlinarith
  have ht : 6 / 10 ≤ real (Hw.vrecps false b x) := by rw [rt]; nlinarith [hp1.1, hp1.2]
  have et : Hw.vrecps false b x = Fp.sub f32_2 (Fp.mul b x) := by
    unfold Hw.vrecps
    rw [infZero_false fx fb, if_neg Bool.false_ne_true, if_neg Bool.false_ne_true]
  have ez : Hw.zrecps b x = Hw.vrecps false b x := by
    unfold Hw.zrecps
    rw [hi, if_neg Bool.false_ne_true, m1, et]
    refine zsub_same (by rw [real_2]; norm_num) (ge_norm c1 (by linarith)) ?_
    rw [← et]; exact ge_norm ht (by linarith)
  unfold rcpZ rcpG
  rw [ez]
  refine zmul_same nx (ge_norm ht (by linarith)) ?_
  rw [abs_mul]
  have : (1 : ℝ) / 2 ^ 125 * (6 / 10) ≤ |real x| * |real (Hw.vrecps false b x)| := mul_le_mul h2 (ht.trans (le_abs_self _)) (by norm_num) (abs_nonneg _)
  refine le_trans ?_ this; norm_num

theorem rcp_two_same {x b : BitVec 32} (fx : isFinite x = true) (fb : isFinite b = true) (h1 : 1 / 2 ^ 124 ≤ |real b|) (h2 : |real b| ≤ 2 ^ 124)
    (he : |1 - real x * real b| ≤ 1 / 128) : rcpZ (rcpZ x b) b = rcpG (rcpG x b) b := by
  obtain ⟨b1, b2⟩ := est_bounds h1 h2 he (by norm_num)
  obtain ⟨f1, e1⟩ := rcpG_step x b _ fx fb b1 b2 he (by norm_num)
  have e1' : |1 - real (rcpG x b) * real b| ≤ 1 / 4 := e1.trans (by norm_num)
  obtain ⟨c1, c2⟩ := est_bounds h1 h2 e1' (le_refl _)
  rw [rcp_same fx fb h1 b1 (he.trans (by norm_num)), rcp_same f1 fb h1 c1 e1']

theorem z_div_lane {c : Cfg} (hz : c.neonZ = true) (E : Est) (a b : Vec 32 n) :
    z_div c E a b = some (fun i => Ftz.mul (a i) (rcpZ (rcpZ (E.rcp (b i)) (b i)) (b i))) := by
  unfold z_div z_rcp_rh z_fmul
  rw [hz]
  rfl

theorem neonZ_div {c : Cfg} (hz : c.neonZ = true) : c.divByRcp 32 ∧ c.sqrtByRsqrt 32 ∧ c.neonFltSp = true ∧ c.neon64 = false := by
  unfold Cfg.neonZ Cfg.neon32 at hz
  simp only [Bool.and_eq_true] at hz
  have h1 : c.neonFltSp = true := hz.2
  have h2 : c.neon64 = false := by unfold Cfg.neon64; simp_all
  exact ⟨⟨rfl, .inl ⟨h1, h2⟩⟩, ⟨rfl, .inl ⟨h1, h2⟩⟩, h1, h2⟩

theorem i_fmul_neonZ {c : Cfg} (h : c.Ok) (hz : c.neonZ = true) (a b : Vec 32 n) : i_fmul c .r128 a b = some (fun i => Fp.mul (a i) (b i)) := by
  refine i_fmul_eq h rfl ?_ a b
  rintro ⟨-, -, e3, -⟩
  obtain ⟨-, -, h1, h2⟩ := neonZ_div hz
  cfg_absurd h

theorem i_div_neonZ {c : Cfg} (h : c.Ok) (hz : c.neonZ = true) (E : Est) (a b : Vec 32 n) :
    i_div c E .r128 a b = some (fun i => Fp.mul (a i) (rcpG (rcpG (E.rcp (b i)) (b i)) (b i))) := by
  obtain ⟨hd, -, h1, h2⟩ := neonZ_div hz
  have hR : ∀ x : Vec 32 n, i_rcp_rh c .r128 x b = some (fun i => rcpG (x i) (b i)) := fun x => by
    unfold i_rcp_rh
    dsimp only
    split_ifs
    all_goals first
      | (rw [h2]; exact i_fmul_neonZ h hz _ _)
      | (exfalso; cfg_absurd h)
  have hE : i_rcp_e c E .r128 b = some (fun i => E.rcp (b i)) := by
    unfold i_rcp_e
    dsimp only
    split_ifs <;> first | rfl | (exfalso; cfg_absurd h)
  have hb : (do
      let x ← i_rcp_e c E .r128 b
      let x ← i_rcp_rh c .r128 x b
      let x ← i_rcp_rh c .r128 x b
      i_fmul c .r128 a x) = some (fun i => Fp.mul (a i) (rcpG (rcpG (E.rcp (b i)) (b i)) (b i))) := by
    simp only [hE, hR, i_fmul_neonZ h hz, Option.bind_eq_bind, Option.bind_some]
  unfold i_div
  refine (dif_pos rfl).trans ?_
  split_ifs
  all_goals first
    | exact hb
    | (exfalso; cfg_absurd h)

/-- **C68**, division, for a divisor away from the ends of the range and an estimate within 1/128: a quotient in the normal range of a normal
number has the bits of the IEEE computation and so a relative error of at most `6 · 2⁻²⁴`; a subnormal dividend counts as zero; a quotient
below half the least normal number is zero. -/
theorem C68_div {c : Cfg} (h : c.Ok) (hz : c.neonZ = true) {E : Est} (hE : E.RcpWithin (1 / 128)) (a b : Vec 32 n) :
    ∃ res ieee, z_div c E a b = some res ∧ i_div c E .r128 a b = some ieee ∧
      ∀ i, isFinite (a i) = true → isFinite (b i) = true → 1 / 2 ^ 124 ≤ |real (b i)| → |real (b i)| ≤ 2 ^ 124 →
        (1 / 2 ^ 126 ≤ |real (a i)| → 1 / 2 ^ 125 ≤ |real (a i) / real (b i)| → |real (a i) / real (b i)| ≤ 2 ^ 126 →
          res i = ieee i ∧ isFinite (res i) = true ∧ |real (res i) - real (a i) / real (b i)| ≤ 6 / 2 ^ 24 * |real (a i) / real (b i)|) ∧
        (|real (a i)| < 1 / 2 ^ 126 ∨ |real (a i) / real (b i)| ≤ 1 / 2 ^ 127 → isFinite (res i) = true ∧ real (res i) = 0) := by
  obtain ⟨ieee, e1, e2⟩ := C52_div_approx h (neonZ_div hz).1 hE a b
  refine ⟨_, ieee, z_div_lane hz E a b, e1, fun i fa fb b1 b2 => ?_⟩
  have ei : ieee i = Fp.mul (a i) (rcpG (rcpG (E.rcp (b i)) (b i)) (b i)) :=
    congrFun (Option.some.inj (e1.symm.trans (i_div_neonZ h hz E a b))) i
  obtain ⟨f0, e0⟩ := hE _ fb b1 b2
  obtain ⟨f2, k2⟩ := rcp_two rcpG_step f0 fb b1 b2 e0
  have es := rcp_two_same f0 fb b1 b2 e0
  have er := e2 i fa fb b1 b2
  rw [es]
  rw [ei] at er ⊢
  generalize rcpG (rcpG (E.rcp (b i)) (b i)) (b i) = x at *
  generalize a i = A at *
  generalize b i = B at *
  have hs := ulp_small
  have hB : real B ≠ 0 := fun e => by rw [e, abs_zero] at b1; exact absurd b1 (by norm_num)
  have hxa : real A * real x = real A / real B * (real x * real B) := by field_simp
  have heb := abs_le.1 k2
  have hxb1 : 9 / 10 ≤ real x * real B := by linarith [heb.2]
  have hxb2 : real x * real B ≤ 11 / 10 := by linarith [heb.1]
  have hab : |real A * real x| = |real A / real B| * (real x * real B) := by rw [hxa, abs_mul, abs_of_pos (by linarith : 0 < real x * real B)]
  constructor
  · intro a1 q1 q2
    obtain ⟨c1, -⟩ := est_bounds b1 b2 (k2.trans (by linarith : 45 / 10 * ulp ≤ 1 / 4)) (le_refl _)
    have : Ftz.mul A x = Fp.mul A x := by
      refine zmul_same a1 (le_trans (by norm_num) c1) ?_
      rw [hab]
      have : (1 : ℝ) / 2 ^ 125 * (9 / 10) ≤ |real A / real B| * (real x * real B) := mul_le_mul q1 hxb1 (by norm_num) (abs_nonneg _)
      refine le_trans ?_ this; norm_num
    rw [this]
    exact ⟨rfl, er (.inr ⟨q1, q2⟩)⟩
  · intro hq
    have z0 : ∀ s, isFinite (mk 32 s 0) = true ∧ real (mk 32 s 0) = 0 := fun s => by
      refine ⟨?_, ?_⟩
      · rw [isFinite_iff, mk_mag fw32 (by positivity)]; decide
      · rw [real_zero_iff, num_mk fw32 (by positivity), numMag_zero]; simp
    rw [zmul_lost fa f2 (hq.imp id fun q => ?_)]
    · exact z0 _
    · rw [hab]
      have : |real A / real B| * (real x * real B) ≤ (1 : ℝ) / 2 ^ 127 * (11 / 10) := mul_le_mul q hxb2 (by linarith) (by norm_num)
      refine lt_of_le_of_lt this ?_; norm_num

/-! ## The step for `1 / sqrt(a)` -/

/-- The step with IEEE arithmetic. -/
def rsqG (x a : BitVec 32) : BitVec 32 := Fp.mul x (Hw.vrsqrts false a (Fp.mul x x))
/-- The step of the unit. -/
def rsqZ (x a : BitVec 32) : BitVec 32 := Ftz.mul x (Hw.zrsqrts a (Ftz.mul x x))

theorem rsqG_step : RsqrtStep rsqG := rsqrtStep_of2 isMul_mul fun _ _ fx fa h1 h2 hn => tm3_vrsqrts isMul_mul fx fa h1 h2 hn false

theorem rsq_same {x a : BitVec 32} (fx : isFinite x = true) (fa : isFinite a = true) (h1 : 1 / 2 ^ 124 ≤ real a) (h2 : real a ≤ 2 ^ 124)
    (hn : Near (real x) (Real.sqrt (real a))) : rsqZ x a = rsqG x a := by
  have hs := ulp_small
  have hp : (1 : ℝ) / 2 ^ 126 ≤ 1 / 2 := by norm_num
  have nx : 1 / 2 ^ 126 ≤ |real x| := ge_norm hn.ge (by norm_num)
  have na : 1 / 2 ^ 126 ≤ |real a| := ge_norm h1 (by norm_num)
  have x1 : (7 / 8 * (1 / 2 ^ 62)) ^ 2 ≤ real x ^ 2 := pow_le_pow_left₀ (by positivity) hn.ge 2
  have x2 : (1 : ℝ) / 2 ^ 125 ≤ real x ^ 2 := le_trans (by norm_num) x1
  have m1 : Ftz.mul x x = Fp.mul x x := zmul_same nx nx (by rw [← sq]; exact ge_norm x2 (by norm_num))
  obtain ⟨f1, ε, k1, r1⟩ := xx_rel isMul_mul fx hn
  have kb := abs_le.1 k1
  have nxx : 1 / 2 ^ 126 ≤ |real (Fp.mul x x)| := by
    have : (1 : ℝ) / 2 ^ 125 * (1 / 2) ≤ real x ^ 2 * (1 + ε) := mul_le_mul x2 (by linarith) (by norm_num) (sq_nonneg _)
    rw [r1]
    exact ge_norm this (by norm_num)
  obtain ⟨b1, b2⟩ := y2_bounds h1 h2 hn
  have nax : 1 / 2 ^ 126 ≤ |real a * real (Fp.mul x x)| := by
    rw [r1, show real a * (real x ^ 2 * (1 + ε)) = real x ^ 2 * real a * (1 + ε) by ring]
    exact ge_norm (by nlinarith : (1 / 2 : ℝ) ≤ real x ^ 2 * real a * (1 + ε)) hp
  have m2 := zmul_same na nxx nax
  obtain ⟨f2, ε2, k2, r2⟩ := xxa_rel isMul_mul fx fa h1 h2 hn isMul_mul
  obtain ⟨f3, e3, k3, r3, c1, c2⟩ := thr_sub h1 h2 hn f2 k2 r2
  have k2b := abs_le.1 k2
  have k3b := abs_le.1 k3
  have t1 := (ThreeMinus.bounds (by linarith : 2001 / 1000 * ulp ≤ 1 / 1000)).2 (tm3_vrsqrts isMul_mul fx fa h1 h2 hn false)
  have et : Hw.vrsqrts false a (Fp.mul x x) = Fp.div (Fp.sub f32_3 (Fp.mul a (Fp.mul x x))) f32_2 := by
    unfold Hw.vrsqrts
    rw [infZero_false f1 fa, if_neg Bool.false_ne_true, if_neg Bool.false_ne_true]
  have hi : Hw.infZero (flush a) (flush (Fp.mul x x)) = false := by
    rw [flush_of (norm_of na), flush_of (norm_of nxx)]; exact infZero_false f1 fa
  have ms : Ftz.sub f32_3 (Fp.mul a (Fp.mul x x)) = Fp.sub f32_3 (Fp.mul a (Fp.mul x x)) := by
    refine zsub_same (by rw [real_3]; norm_num) ?_ ?_
    · rw [r2]; exact ge_norm (by nlinarith : (1 / 2 : ℝ) ≤ real x ^ 2 * real a * (1 + ε2)) hp
    · rw [r3]; exact ge_norm (by nlinarith : (1 / 2 : ℝ) ≤ (3 - real x ^ 2 * real a * (1 + ε2)) * (1 + e3)) hp
  have nt : 1 / 2 ^ 126 ≤ |real (Hw.vrsqrts false a (Fp.mul x x))| := ge_norm t1.1 (by linarith)
  have ez : Hw.zrsqrts a (Fp.mul x x) = Hw.vrsqrts false a (Fp.mul x x) := by
    unfold Hw.zrsqrts
    rw [hi, if_neg Bool.false_ne_true, m2, ms, ← et, flush_of (norm_of nt)]
  unfold rsqZ rsqG
  rw [m1, ez]
  refine zmul_same nx nt ?_
  have : (7 : ℝ) / 8 * (1 / 2 ^ 62) * (8 / 10) ≤ real x * real (Hw.vrsqrts false a (Fp.mul x x)) := mul_le_mul hn.ge t1.1 (by norm_num) hn.pos.le
  exact ge_norm this (by norm_num)

theorem z_sqrt_lane {c : Cfg} (hz : c.neonZ = true) (E : Est) (a : Vec 32 n) :
    z_sqrt c E a = some (fun i => Ftz.mul (a i) (rsqZ (E.rsqrt (a i)) (a i))) := by
  unfold z_sqrt z_rsqrt_rh z_fmul
  rw [hz]
  rfl

theorem i_sqrt_neonZ {c : Cfg} (h : c.Ok) (hz : c.neonZ = true) (E : Est) (a : Vec 32 n) :
    i_sqrt c E .r128 a = some (fun i => Fp.mul (a i) (rsqG (E.rsqrt (a i)) (a i))) := by
  obtain ⟨-, hd, h1, h2⟩ := neonZ_div hz
  have hR : ∀ x : Vec 32 n, i_rsqrt_rh c .r128 x a = some (fun i => rsqG (x i) (a i)) := fun x => by
    unfold i_rsqrt_rh
    dsimp only
    split_ifs
    all_goals first
      | (simp only [h2, i_fmul_neonZ h hz, Option.bind_eq_bind, Option.bind_some]; rfl)
      | (exfalso; cfg_absurd h)
  have hE : i_rsqrt_e c E .r128 a = some (fun i => E.rsqrt (a i)) := by
    unfold i_rsqrt_e
    dsimp only
    split_ifs <;> first | rfl | (exfalso; cfg_absurd h)
  have hb : (do
      let x ← i_rsqrt_e c E .r128 a
      let x ← i_rsqrt_rh c .r128 x a
      i_fmul c .r128 a x) = some (fun i => Fp.mul (a i) (rsqG (E.rsqrt (a i)) (a i))) := by
    simp only [hE, hR, i_fmul_neonZ h hz, Option.bind_eq_bind, Option.bind_some]
  unfold i_sqrt
  refine (dif_pos rfl).trans ?_
  split_ifs
  all_goals first
    | exact hb
    | (exfalso; cfg_absurd h)

/-- **C68**, square root: for a positive number away from the ends of the range the root has the bits of the IEEE computation and so a relative
error of at most `2 δ² + 8 · 2⁻²⁴`, where `δ ≤ 1/8` bounds that of the estimate. -/
theorem C68_sqrt {c : Cfg} (h : c.Ok) (hz : c.neonZ = true) {E : Est} {δ : ℝ} (hE : E.RsqrtWithin δ) (hδ : δ ≤ 1 / 8) (a : Vec 32 n) :
    ∃ res ieee, z_sqrt c E a = some res ∧ i_sqrt c E .r128 a = some ieee ∧
      ∀ i, isFinite (a i) = true → 1 / 2 ^ 124 ≤ real (a i) → real (a i) ≤ 2 ^ 124 →
        res i = ieee i ∧ isFinite (res i) = true ∧ |real (res i) - Real.sqrt (real (a i))| ≤ (2 * δ ^ 2 + 8 / 2 ^ 24) * Real.sqrt (real (a i)) := by
  obtain ⟨ieee, e1, e2⟩ := C52_sqrt_approx h (neonZ_div hz).2.1 hE hδ a
  refine ⟨_, ieee, z_sqrt_lane hz E a, e1, fun i fa a1 a2 => ?_⟩
  have ei : ieee i = Fp.mul (a i) (rsqG (E.rsqrt (a i)) (a i)) := congrFun (Option.some.inj (e1.symm.trans (i_sqrt_neonZ h hz E a))) i
  obtain ⟨f0, e0⟩ := hE _ fa a1 a2
  have hn := near_est a1 a2 e0 hδ
  obtain ⟨f1, k1⟩ := rsqG_step _ _ _ f0 fa a1 a2 e0 hδ
  have er := e2 i fa a1 a2
  have key : Ftz.mul (a i) (rsqZ (E.rsqrt (a i)) (a i)) = ieee i := by
    rw [ei, rsq_same f0 fa a1 a2 hn]
    generalize rsqG (E.rsqrt (a i)) (a i) = x at *
    generalize a i = A at *
    have hδ0 : 0 ≤ δ := le_trans (abs_nonneg _) e0
    have hn2 := near_est a1 a2 k1 (by nlinarith : 2 * δ ^ 2 + 6 / 2 ^ 24 ≤ 1 / 8)
    obtain ⟨s0, s1, s2, s3⟩ := sqrt_bounds a1 a2
    have hax : real A * real x = Real.sqrt (real A) * (real x * Real.sqrt (real A)) := by
      calc real A * real x = (Real.sqrt (real A) * Real.sqrt (real A)) * real x := by rw [s1]
        _ = _ := by ring
    refine zmul_same (ge_norm a1 (by norm_num)) (ge_norm hn2.ge (by norm_num)) ?_
    rw [hax]
    have : (1 : ℝ) / 2 ^ 62 * (7 / 8) ≤ Real.sqrt (real A) * (real x * Real.sqrt (real A)) := mul_le_mul s2 hn2.lo (by norm_num) s0.le
    exact ge_norm this (by norm_num)
  rw [key]
  exact ⟨rfl, er⟩

/-! ## Subnormal divisors and radicands -/

/-- The infinity of the sign of `x`. -/
def infOf (x : BitVec 32) : BitVec 32 := if x.msb then 0xff800000#32 else 0x7f800000#32

theorem infOf_cases (x : BitVec 32) : infOf x = 0xff800000#32 ∨ infOf x = 0x7f800000#32 := by
  unfold infOf; split_ifs <;> simp

theorem num_flush_zero {x : BitVec 32} (h : mag x < 2 ^ 23) : num (flush x) = 0 := by
  rw [num_flush fw32]; exact if_pos h

theorem infZero_low {x y : BitVec 32} (h : mag x < 2 ^ 23) (hy : y = 0xff800000#32 ∨ y = 0x7f800000#32) :
    Hw.infZero (flush x) (flush y) = true := by
  unfold Hw.infZero
  rw [num_flush_zero h]
  rcases hy with e | e <;> subst e
  · rw [show isInf (flush 0xff800000#32) = true by decide +kernel]; simp
  · rw [show isInf (flush 0x7f800000#32) = true by decide +kernel]; simp

theorem flush_low {x : BitVec 32} (h : mag x < 2 ^ 23) : flush x = 0#32 ∨ flush x = 0x80000000#32 := by
  have e : mag (flush x) = 0 := by rw [flush_mag fw32]; exact if_pos h
  generalize flush x = y at e
  have hy := y.isLt
  unfold mag at e
  have : y.toNat = 0 ∨ y.toNat = 0x80000000 := by omega
  exact this.imp (fun h => BitVec.eq_of_toNat_eq h) (fun h => BitVec.eq_of_toNat_eq h)

theorem zmul_low_inf {x y : BitVec 32} (h : mag x < 2 ^ 23) (hy : y = 0xff800000#32 ∨ y = 0x7f800000#32) : Ftz.mul x y = nan 32 := by
  have fy : ¬ isFinite y = true := by rcases hy with e | e <;> subst e <;> decide
  unfold Ftz.mul
  rw [if_neg fun g => fy g.2.1]
  rcases flush_low h with e | e <;> rw [e] <;> rcases hy with e | e <;> subst e <;> decide +kernel

/-- **C68**: the square root of a subnormal number (of either sign) or zero is NaN, provided the estimate of its reciprocal root is an infinity. -/
theorem C68_sqrt_subnormal {c : Cfg} (hz : c.neonZ = true) {E : Est} (a : Vec 32 n) :
    ∃ res, z_sqrt c E a = some res ∧ ∀ i, Subnormal (a i) ∨ mag (a i) = 0 → E.rsqrt (a i) = infOf (a i) → res i = nan 32 := by
  refine ⟨_, z_sqrt_lane hz E a, fun i hm hE => ?_⟩
  have hm : mag (a i) < 2 ^ 23 := hm.elim (fun g => g.2) (fun g => by rw [g]; decide)
  rw [hE]
  generalize a i = A at *
  have hi := infOf_cases A
  generalize infOf A = y at *
  refine zmul_low_inf hm ?_
  have e1 : Ftz.mul y y = 0x7f800000#32 := by rcases hi with e | e <;> subst e <;> decide +kernel
  have e2 : Hw.zrsqrts A (Ftz.mul y y) = f32_1h := by
    unfold Hw.zrsqrts
    rw [e1, infZero_low hm (.inr rfl), if_pos rfl]
  unfold rsqZ
  rw [e2]
  rcases hi with e | e <;> subst e
  · exact .inl (by decide +kernel)
  · exact .inr (by decide +kernel)

/-- **C68**: where the divisor is subnormal or zero the quotient is an infinity, and NaN if the dividend is subnormal or zero too, provided the
estimate of the reciprocal is an infinity. -/
theorem C68_div_subnormal {c : Cfg} (hz : c.neonZ = true) {E : Est} (a b : Vec 32 n) :
    ∃ res, z_div c E a b = some res ∧ ∀ i, Subnormal (b i) ∨ mag (b i) = 0 → E.rcp (b i) = infOf (b i) →
      (Subnormal (a i) ∨ mag (a i) = 0 → res i = nan 32) ∧
      (isFinite (a i) = true → ¬ Subnormal (a i) → mag (a i) ≠ 0 → isInf (res i) = true ∧ (res i).msb = ((a i).msb != (b i).msb)) := by
  refine ⟨_, z_div_lane hz E a b, fun i hm hE => ?_⟩
  have hm : mag (b i) < 2 ^ 23 := hm.elim (fun g => g.2) (fun g => by rw [g]; decide)
  have hs : ∀ y, y = 0xff800000#32 ∨ y = 0x7f800000#32 → rcpZ y (b i) = y := fun y hy => by
    have e2 : Hw.zrecps (b i) y = f32_2 := by
      unfold Hw.zrecps
      rw [infZero_low hm hy, if_pos rfl]
    unfold rcpZ
    rw [e2]
    rcases hy with e | e <;> subst e <;> decide +kernel
  rw [hE, hs _ (infOf_cases _), hs _ (infOf_cases _)]
  constructor
  · exact fun ha => zmul_low_inf (ha.elim (fun g => g.2) (fun g => by rw [g]; decide)) (infOf_cases _)
  · intro fa ns nz
    have hy := infOf_cases (b i)
    have hmsb : (infOf (b i)).msb = (b i).msb := by unfold infOf; split_ifs with g <;> simp [g] <;> decide
    generalize infOf (b i) = y at *
    have fy : ¬ isFinite y = true := by rcases hy with e | e <;> subst e <;> decide
    have fl : flush y = y := by rcases hy with e | e <;> subst e <;> decide +kernel
    have iy : isInf y = true := by rcases hy with e | e <;> subst e <;> decide +kernel
    have ny : isNaN y = false := by rcases hy with e | e <;> subst e <;> decide +kernel
    obtain ⟨na, ia⟩ := not_nan_of_finite fa
    have nn : decide (mag (a i) = 0) = false := decide_eq_false nz
    have ny0 : decide (mag y = 0) = false := by rcases hy with e | e <;> subst e <;> decide
    unfold Ftz.mul
    rw [if_neg fun g => fy g.2.1, flush_of ns, fl]
    unfold Fp.mul
    simp only [na, ny, ia, iy, nn, ny0, Bool.or_self, Bool.or_false, Bool.or_true, Bool.false_or, Bool.false_eq_true, if_false, if_true]
    rw [← hmsb]
    cases (a i).msb <;> rcases hy with e | e <;> subst e <;> decide +kernel

/-! ## Examples -/

-- two thirds
example : ∃ res, z_div Cfg.neonA32 Est.exact (Vec.splat f32_2 : Vec 32 4) (Vec.splat f32_3) = some res ∧ ∀ i, |real (res i) - 2 / 3| ≤ 6 / 2 ^ 24 * (2 / 3) := by
  obtain ⟨res, ieee, h1, -, h2⟩ := C68_div Cfg.neonA32_ok (by decide) Est.exact_rcp (Vec.splat f32_2 : Vec 32 4) (Vec.splat f32_3)
  refine ⟨res, h1, fun i => ?_⟩
  have e : ∀ z : BitVec 32, (Vec.splat z : Vec 32 4) i = z := fun _ => rfl
  have := h2 i
  rw [e, e, real_2, real_3, abs_of_pos (by norm_num : (0 : ℝ) < 2 / 3)] at this
  exact ((this fin_2 fin_3 (by norm_num) (by norm_num)).1 (by norm_num) (by norm_num) (by norm_num)).2.2

example (a : Vec 32 4) : ∃ res ieee, z_sqrt Cfg.neonA32 Est.exact a = some res ∧ i_sqrt Cfg.neonA32 Est.exact .r128 a = some ieee ∧
    ∀ i, isFinite (a i) = true → 1 / 2 ^ 124 ≤ real (a i) → real (a i) ≤ 2 ^ 124 → res i = ieee i := by
  obtain ⟨r, e, h1, h2, h3⟩ := C68_sqrt Cfg.neonA32_ok (by decide) Est.exact_rsqrt (by norm_num) a
  exact ⟨r, e, h1, h2, fun i f g1 g2 => (h3 i f g1 g2).1⟩

/-- The quotient `2⁻¹³⁰ / 2⁻¹²⁰` is zero there, because the dividend is subnormal, where other builds give `2⁻¹⁰`. -/
theorem C68_div_lost : z_div Cfg.neonA32 Est.exact (Vec.splat 0x00080000#32 : Vec 32 4) (Vec.splat 0x03800000#32) = some (Vec.splat 0#32) ∧
    i_div Cfg.sse2Only Est.exact .r128 (Vec.splat 0x00080000#32 : Vec 32 4) (Vec.splat 0x03800000#32) = some (Vec.splat 0x3a800000#32) := by
  decide +kernel

end Simdpp
