import Verif.Model.Log2
import Verif.Props.Log2Real
import Verif.Props.FNewton
import Verif.Props.FConv
import Verif.Props.Mem
import Verif.Props.MakeConst
import Verif.Props.BlendLemmas
import Verif.Props.PopcntLemmas

/-!
# C53: `log2_approx`

The reference is `Real.logb 2` of the real number a lane stands for (`Spec.Fp.real`).
-/

namespace Simdpp
open Spec Spec.Fp Spec.Flt
variable {N : Nat}

/-- One lane of `log2_approx_positive_finite`, `m` standing for the product. -/
def log2Lane (m : BitVec 32 → BitVec 32 → BitVec 32) (x : BitVec 32) : BitVec 32 :=
  let y := (0x3f800000#32 &&& 0x7f800000#32) ||| (x &&& ~~~ 0x7f800000#32)
  Fp.add (Fp.ofInt 32 (val true ((bshr false x 23 &&& 0xff#32) - 128#32))) (Fp.sub (m (Fp.add (m log2_c2 y) log2_c1) y) log2_c0)

section
attribute [local irreducible] Fp.mul Fp.fma Fp.sub Fp.add Fp.round

theorem log2_pos_eq {c : Cfg} (h : c.Ok) (hN : c.FLen 32 N) :
    ∃ m, IsMul m ∧ ∀ a : Vec 32 N, log2_approx_positive_finite c a = some (fun i => log2Lane m (a i)) := by
  have hf : c.hasVec .flt 32 (c.regF 32 N) = true := (KLen.regs h (k := .flt) (.inl rfl) hN).1
  have hV := FLen.toVLen h (.inl rfl) hN
  obtain ⟨hi', K, -, hK⟩ : c.hasVec .int 32 (c.regOf 32 N) = true ∧ ∃ K, 0 < K ∧ N = K * (c.regOf 32 N).lanes 32 :=
    KLen.regs h (k := .int) iw32 hV
  have hi : c.hasInt 32 (c.regOf 32 N) = true := hi'
  have h2 : N % 2 = 0 := by
    rw [hK, Nat.mul_mod]
    cases c.regOf 32 N <;> simp [Reg.lanes, Reg.bits]
  obtain ⟨m, hm, em⟩ := i_fmul_lane h hf
  refine ⟨m, hm, fun a => ?_⟩
  unfold log2_approx_positive_finite
  dsimp only
  rw [shift_r_imm_eq h false iw32 hi h2 a (by decide)]
  simp only [i_bit_and_eq h (k := .int) iw32 hi', i_isub_eq h iw32 hi, i_i32f32_eq h true hN, i_bit_select_eq h (k := .int) iw32 hi', em,
    i_fadd_eq h hf, i_fsub_eq h hf, Option.bind_eq_bind, Option.bind_some]
  congr 1
end

/-! ### The lane -/

theorem log2_exp_lane {x : BitVec 32} {E f : Nat} (he : x.toNat = E * 2 ^ 23 + f) (hf : f < 2 ^ 23) (hE : E < 256) :
    val true ((bshr false x 23 &&& 0xff#32) - 128#32) = (E : Int) - 128 := by
  have e : bshr false x 23 &&& 0xff#32 = BitVec.ofNat 32 E := by
    apply BitVec.eq_of_toNat_eq
    rw [BitVec.toNat_and, bshr_toNat, he, show (0xff#32).toNat = 2 ^ 8 - 1 from rfl, Nat.and_two_pow_sub_one_eq_mod, BitVec.toNat_ofNat]
    omega
  rw [e]
  have h2 : BitVec.ofNat 32 E - 128#32 = BitVec.ofInt 32 ((E : Int) - 128) := by
    apply BitVec.eq_of_toInt_eq
    rw [BitVec.toInt_sub, BitVec.toInt_ofInt, BitVec.toInt_ofNat', show (128#32).toInt = 128 from rfl, Int.bmod_sub_bmod]
  rw [h2]
  unfold val
  rw [if_pos rfl, BitVec.toInt_ofInt]
  rw [Int.bmod_eq_of_le (by omega) (by omega)]

theorem log2_low_bits : ∀ i : Fin 31, (~~~ 0x7f800000#32)[i.1] = (0x7fffff#32)[i.1] := by decide

theorem log2_mant_lane {x : BitVec 32} {E f : Nat} (he : x.toNat = E * 2 ^ 23 + f) (hf : f < 2 ^ 23) (hE : E < 256) :
    ((0x3f800000#32 &&& 0x7f800000#32) ||| (x &&& ~~~ 0x7f800000#32)).toNat = 127 * 2 ^ 23 + f := by
  have hm : x.msb = false := by
    rw [BitVec.msb_eq_decide]; simp; omega
  have e : x &&& ~~~ 0x7f800000#32 = x &&& 0x7fffff#32 := by
    ext i hi
    rcases Nat.lt_or_ge i 31 with g | g
    · have : (~~~ 0x7f800000#32)[i] = (0x7fffff#32)[i] := by
        exact log2_low_bits ⟨i, g⟩
      rw [BitVec.getElem_and, BitVec.getElem_and, this]
    · have : x[i] = false := by
        rw [BitVec.msb_eq_getLsbD_last] at hm
        have : i = 31 := by omega
        subst this
        simpa using hm
      rw [BitVec.getElem_and, BitVec.getElem_and, this, Bool.false_and, Bool.false_and]
  have e2 : (x &&& 0x7fffff#32).toNat = f := by
    rw [BitVec.toNat_and, he, show (0x7fffff#32).toNat = 2 ^ 23 - 1 from rfl, Nat.and_two_pow_sub_one_eq_mod]
    omega
  rw [e, BitVec.toNat_or, e2, show (0x3f800000#32 &&& 0x7f800000#32).toNat = 2 ^ 23 * 127 from rfl, ← Nat.two_pow_add_eq_or_of_lt hf]
  omega

theorem real_pos_of_bits {x : BitVec 32} {q f : Nat} (he : x.toNat = (q + 1) * 2 ^ 23 + f) (hf : f < 2 ^ 23) (hq : q < 254) :
    isFinite x = true ∧ real x = (2 ^ 23 + f) * 2 ^ q / 2 ^ 149 := by
  have hm : x.msb = false := by
    rw [BitVec.msb_eq_decide]; simp; omega
  have hg : mag x = (q + 1) * 2 ^ 23 + f := by
    unfold mag; rw [← he]; omega
  constructor
  · unfold isFinite
    rw [hg]
    exact decide_eq_true (by have : infBits 32 = 255 * 2 ^ 23 := by decide
                             omega)
  · refine real_of_num ?_
    unfold num
    rw [hm, if_neg (by decide), hg, show (23 : Nat) = prec 32 - 1 from rfl, numMag_high (by exact hf)]
    push_cast
    rw [show prec 32 - 1 = 23 from rfl]
    generalize (2 : ℝ) ^ q = Q
    field_simp


theorem exact_of_rel {v r ε B : ℝ} (he : |ε| ≤ ulp) (hr : r = v * (1 + ε)) (hv : |v| ≤ B) : |r - v| ≤ ulp * B := by
  have : r - v = ε * v := by rw [hr]; ring
  rw [this, abs_mul]
  exact mul_le_mul he hv (abs_nonneg _) ulp_pos.le

theorem fin_c2 : isFinite log2_c2 = true := by decide
theorem fin_c1 : isFinite log2_c1 = true := by decide
theorem fin_c0 : isFinite log2_c0 = true := by decide

theorem real_scaled {x : BitVec 32} {z : Int} {k : Nat} (h : num x * 2 ^ k = z * 2 ^ 149) : real x = z / 2 ^ k := by
  refine real_of_num ?_
  have : (num x : ℝ) * 2 ^ k = z * 2 ^ 149 := by exact_mod_cast h
  rw [div_mul_eq_mul_div, ← this]
  field_simp

theorem real_c2 : real log2_c2 = -1446379 / 4194304 := by
  rw [real_scaled (z := -1446379) (k := 22) (by decide +kernel)]; norm_num
theorem real_c1 : real log2_c1 = 530753 / 262144 := by
  rw [real_scaled (z := 530753) (k := 18) (by decide +kernel)]; norm_num
theorem real_c0 : real log2_c0 = 11322539 / 16777216 := by
  rw [real_scaled (z := 11322539) (k := 24) (by decide +kernel)]; norm_num

/-- The polynomial as it is computed. -/
theorem log2_mant_err {m : BitVec 32 → BitVec 32 → BitVec 32} (hm : IsMul m) {y : BitVec 32} (fy : isFinite y = true)
    (y1 : 1 ≤ real y) (y2 : real y ≤ 2) :
    isFinite (Fp.sub (m (Fp.add (m log2_c2 y) log2_c1) y) log2_c0) = true ∧
      |real (Fp.sub (m (Fp.add (m log2_c2 y) log2_c1) y) log2_c0) - log2Poly (real y)| ≤ 1 / 500000 := by
  have hu := ulp_pos
  have hu2 : ulp ≤ 1 / 16000000 := by unfold ulp; norm_num
  have B : (10 : ℝ) < 2 ^ 127 := by norm_num
  have S : (1 : ℝ) / 2 ^ 126 ≤ 1 / 8 := by norm_num
  -- the first product
  have b1 : |real log2_c2 * real y| ≤ 1 := by rw [real_c2, abs_le]; constructor <;> linarith
  have b1' : 1 / 8 ≤ |real log2_c2 * real y| := by rw [real_c2, abs_of_neg (by linarith)]; linarith
  obtain ⟨f1, ε1, e1, r1⟩ := hm.rel fin_c2 fy (S.trans b1') (b1.trans_lt (by linarith))
  have d1 := exact_of_rel e1 r1 b1
  generalize m log2_c2 y = t1 at *
  rw [real_c2] at d1
  rw [abs_le] at d1
  -- the first sum
  have b2 : |real t1 + real log2_c1| ≤ 3 := by rw [real_c1, abs_le]; constructor <;> linarith
  obtain ⟨f2, ε2, e2, r2⟩ := add_rel f1 fin_c1 (b2.trans_lt (by linarith))
  have d2 := exact_of_rel e2 r2 b2
  generalize Fp.add t1 log2_c1 = t2 at *
  rw [real_c1, abs_le] at d2
  -- the second product
  have l2 : 1 ≤ real t2 := by linarith
  have u2 : real t2 ≤ 2 := by linarith
  have p1 : 1 ≤ real t2 * real y := by nlinarith
  have p2 : real t2 * real y ≤ 4 := by nlinarith
  have b3 : |real t2 * real y| ≤ 4 := by rw [abs_le]; constructor <;> linarith
  have b3' : 1 / 8 ≤ |real t2 * real y| := by rw [abs_of_pos (by linarith)]; linarith
  obtain ⟨f3, ε3, e3, r3⟩ := hm.rel f2 fy (S.trans b3') (b3.trans_lt (by linarith))
  have d3 := exact_of_rel e3 r3 b3
  generalize m t2 y = t3 at *
  rw [abs_le] at d3
  -- the difference
  have b4 : |real t3 - real log2_c0| ≤ 5 := by rw [real_c0, abs_le]; constructor <;> linarith
  obtain ⟨f4, ε4, e4, r4⟩ := sub_rel f3 fin_c0 (b4.trans_lt (by linarith))
  have d4 := exact_of_rel e4 r4 b4
  refine ⟨f4, ?_⟩
  generalize Fp.sub t3 log2_c0 = t4 at *
  rw [real_c0, abs_le] at d4
  unfold log2Poly
  have q1 : (real t2 - (-1446379 / 4194304 * real y + 530753 / 262144)) * real y ≤ 4 * ulp * 2 :=
    mul_le_mul (by linarith) y2 (by linarith) (by linarith)
  have q2 : -(real t2 - (-1446379 / 4194304 * real y + 530753 / 262144)) * real y ≤ 4 * ulp * 2 :=
    mul_le_mul (by linarith) y2 (by linarith) (by linarith)
  rw [abs_le]
  constructor <;> linarith

/-- One lane with the exponent field `E` and the fraction field `f`. -/
theorem log2_lane_raw {m : BitVec 32 → BitVec 32 → BitVec 32} (hm : IsMul m) {x : BitVec 32} {E f : Nat} (he : x.toNat = E * 2 ^ 23 + f)
    (hf : f < 2 ^ 23) (hE : E < 256) :
    isFinite (log2Lane m x) = true ∧
      |real (log2Lane m x) - ((E : ℝ) - 127 + Real.logb 2 (1 + f / 2 ^ 23))| ≤ 51 / 10000 := by
  unfold log2Lane
  rw [log2_exp_lane he hf (by omega)]
  dsimp only
  have hy := log2_mant_lane he hf (by omega)
  generalize ((0x3f800000#32 &&& 0x7f800000#32) ||| (x &&& ~~~ 0x7f800000#32)) = y at *
  obtain ⟨fy, ry⟩ := real_pos_of_bits (q := 126) hy hf (by decide)
  have hfR : (f : ℝ) < 2 ^ 23 := by exact_mod_cast hf
  have hf0 : (0 : ℝ) ≤ f := by positivity
  have ry2 : real y = 1 + f / 2 ^ 23 := by
    rw [ry, show (2 : ℝ) ^ 149 = 2 ^ 23 * 2 ^ 126 by rw [← pow_add]]
    generalize hA : (2 : ℝ) ^ 126 = A
    have : 0 < A := by rw [← hA]; positivity
    field_simp
  rw [← ry2]
  have y1 : 1 ≤ real y := by
    rw [ry2]; have : (0 : ℝ) ≤ f / 2 ^ 23 := by positivity
    linarith
  have y2 : real y ≤ 2 := by
    rw [ry2]; have : (f : ℝ) / 2 ^ 23 ≤ 1 := by rw [div_le_one (by positivity)]; exact hfR.le
    linarith
  obtain ⟨ft, dt⟩ := log2_mant_err hm fy y1 y2
  generalize Fp.sub (m (Fp.add (m log2_c2 y) log2_c1) y) log2_c0 = t at *
  have pe := log2Poly_err y1 y2
  have hI := ofInt_exact32 (z := (E : Int) - 128) (s := ((E : Int) - 128).natAbs) (q := 0) (by simp) (by omega) (by decide)
  generalize Fp.ofInt 32 ((E : Int) - 128) = s at *
  obtain ⟨fs, ns⟩ := hI
  have rs : real s = (E : ℝ) - 128 := by
    rw [real_ofBits ns]; push_cast; ring
  have hqR : (E : ℝ) ≤ 256 := by exact_mod_cast hE.le
  have hq0 : (0 : ℝ) ≤ E := by positivity
  have hp1 : |log2Poly (real y)| ≤ 3 := by
    unfold log2Poly
    rw [abs_le]; constructor <;> nlinarith
  rw [abs_le] at dt pe hp1
  have bs : |real s + real t| ≤ 132 := by rw [rs, abs_le]; constructor <;> linarith
  obtain ⟨fr, ε, e, r⟩ := add_rel fs ft (bs.trans_lt (by norm_num))
  have dr := exact_of_rel e r bs
  refine ⟨fr, ?_⟩
  generalize Fp.add s t = res at *
  have hu2 : ulp ≤ 1 / 16000000 := by unfold ulp; norm_num
  rw [abs_le] at dr ⊢
  constructor <;> linarith

theorem log2_msb_pos {x : BitVec 32} (h3 : 0 < real x) : x.msb = false := by
  by_contra g
  have g1 := num_nonpos_of (x := x) (by simpa using g)
  have g2 : (num x : ℝ) ≤ 0 := by exact_mod_cast g1
  rw [real_eq] at g2
  have h4 : 0 < real x * 2 ^ 149 := by positivity
  linarith

/-- The error of one lane: the number in it is not below the smallest normal number. -/
theorem log2_lane_err {m : BitVec 32 → BitVec 32 → BitVec 32} (hm : IsMul m) {x : BitVec 32} (fx : isFinite x = true)
    (hx : 1 / 2 ^ 126 ≤ real x) :
    isFinite (log2Lane m x) = true ∧ |real (log2Lane m x) - Real.logb 2 (real x)| ≤ 51 / 10000 := by
  obtain ⟨q, f, he, hf, hq⟩ : ∃ q f, x.toNat = (q + 1) * 2 ^ 23 + f ∧ f < 2 ^ 23 ∧ q < 254 := by
    have hm0 : x.msb = false := log2_msb_pos (lt_of_lt_of_le (by positivity) hx)
    have hlt : x.toNat < 2 ^ 31 := by
      rw [BitVec.msb_eq_decide] at hm0; simp at hm0; omega
    have hg : mag x = x.toNat := by unfold mag; omega
    have hfin : x.toNat < 255 * 2 ^ 23 := by
      have := isFinite_iff.1 fx
      rw [hg] at this
      have : infBits 32 = 255 * 2 ^ 23 := by decide
      omega
    have hlow : 2 ^ 23 ≤ x.toNat := by
      by_contra g
      have hn : num x = (x.toNat : Int) := by
        unfold num; rw [hm0, if_neg (by decide), hg, numMag_low (by rw [show prec 32 - 1 = 23 from rfl]; omega)]
      have h3 : real x = x.toNat / 2 ^ 149 := by unfold real; rw [hn]; push_cast; rfl
      rw [h3, show (2 : ℝ) ^ 149 = 2 ^ 23 * 2 ^ 126 by rw [← pow_add], div_le_div_iff₀ (by positivity) (by positivity), one_mul] at hx
      have h4 : (2 : ℝ) ^ 23 ≤ x.toNat := by
        exact le_of_mul_le_mul_right hx (by positivity)
      have h5 : 2 ^ 23 ≤ x.toNat := by exact_mod_cast h4
      omega
    exact ⟨x.toNat / 2 ^ 23 - 1, x.toNat % 2 ^ 23, by omega, by omega, by omega⟩
  have fx' := real_pos_of_bits he hf hq
  obtain ⟨r1, r2⟩ := log2_lane_raw hm he hf (by omega)
  refine ⟨r1, ?_⟩
  have h0 : (0 : ℝ) < 1 + f / 2 ^ 23 := by positivity
  have hlog : Real.logb 2 (real x) = ((q + 1 : ℕ) : ℝ) - 127 + Real.logb 2 (1 + f / 2 ^ 23) := by
    have : real x = 2 ^ ((q : ℝ) - 126) * (1 + f / 2 ^ 23) := by
      rw [Real.rpow_sub (by norm_num), Real.rpow_natCast, fx'.2, show (126 : ℝ) = ((126 : ℕ) : ℝ) by norm_num, Real.rpow_natCast,
        show (2 : ℝ) ^ 149 = 2 ^ 23 * 2 ^ 126 by rw [← pow_add]]
      generalize hA : (2 : ℝ) ^ 126 = A
      have : 0 < A := by rw [← hA]; positivity
      field_simp
    rw [this, Real.logb_mul (by positivity) h0.ne', Real.logb_rpow (by norm_num) (by norm_num)]
    push_cast; ring
  rw [hlog]
  exact r2

/-- A subnormal lane. -/
theorem log2_lane_sub {m : BitVec 32 → BitVec 32 → BitVec 32} (hm : IsMul m) {x : BitVec 32} (h0 : 0 < real x) (h1 : real x < 1 / 2 ^ 126) :
    isFinite x = true ∧ isFinite (log2Lane m x) = true ∧ |real (log2Lane m x) - (-127 + Real.logb 2 (1 + real x * 2 ^ 126))| ≤ 51 / 10000 := by
  have hm0 := log2_msb_pos h0
  have hlt : x.toNat < 2 ^ 31 := by
    rw [BitVec.msb_eq_decide] at hm0; simp at hm0; omega
  have hg : mag x = x.toNat := by unfold mag; omega
  have hn : num x = (numMag 32 x.toNat : Int) := by
    unfold num; rw [hm0, if_neg (by decide), hg]
  have hlow : x.toNat < 2 ^ 23 := by
    by_contra g
    have e : numMag 32 x.toNat = (2 ^ 23 + x.toNat % 2 ^ 23) * 2 ^ (x.toNat / 2 ^ 23 - 1) := by
      have := numMag_high (w := 32) (q := x.toNat / 2 ^ 23 - 1) (f := x.toNat % 2 ^ 23) (Nat.mod_lt _ (by decide))
      rw [show prec 32 - 1 = 23 from rfl] at this
      rw [← this]; congr 1; omega
    have e2 : 2 ^ 23 ≤ numMag 32 x.toNat := by
      rw [e]
      calc 2 ^ 23 ≤ 2 ^ 23 + x.toNat % 2 ^ 23 := by omega
        _ ≤ _ := Nat.le_mul_of_pos_right _ (by positivity)
    have e3 : (2 : ℝ) ^ 23 ≤ (num x : ℝ) := by rw [hn]; exact_mod_cast e2
    rw [real_eq] at e3
    rw [lt_div_iff₀ (by positivity)] at h1
    have e4 : real x * 2 ^ 149 = real x * 2 ^ 126 * 2 ^ 23 := by rw [mul_assoc, ← pow_add]
    rw [e4] at e3
    have : real x * 2 ^ 126 * 2 ^ 23 < 1 * 2 ^ 23 := mul_lt_mul_of_pos_right h1 (by positivity)
    linarith
  have := log2_lane_raw hm (x := x) (E := 0) (f := x.toNat) (by omega) hlow (by decide)
  have e : real x * 2 ^ 126 = (x.toNat : ℝ) / 2 ^ 23 := by
    rw [numMag_low (by exact hlow)] at hn
    have h3 : real x = x.toNat / 2 ^ 149 := by unfold real; rw [hn]; push_cast; rfl
    rw [h3, show (2 : ℝ) ^ 149 = 2 ^ 23 * 2 ^ 126 by rw [← pow_add]]
    generalize hA : (2 : ℝ) ^ 126 = A
    have : 0 < A := by rw [← hA]; positivity
    field_simp
  rw [e]
  refine ⟨isFinite_iff.2 (by rw [hg]; have : infBits 32 = 255 * 2 ^ 23 := by decide
                             omega), ?_⟩
  simpa using this

/-! ### The functions -/

/-- C53: where `log2_approx_positive_finite` is given a number not below `2 ^ -126`, its result is a number that differs from the binary
logarithm by `0.0051` at most. -/
theorem C53_log2_positive_partial {c : Cfg} (h : c.Ok) (hN : c.FLen 32 N) (a : Vec 32 N) :
    ∃ res, log2_approx_positive_finite c a = some res ∧ ∀ i, isFinite (a i) = true → 1 / 2 ^ 126 ≤ real (a i) →
      isFinite (res i) = true ∧ |real (res i) - Real.logb 2 (real (a i))| ≤ 51 / 10000 := by
  obtain ⟨m, hm, e⟩ := log2_pos_eq h hN
  exact ⟨_, e a, fun i fx hx => log2_lane_err hm fx hx⟩

theorem log2_approx_eq {c : Cfg} (h : c.Ok) (hN : c.FLen 32 N) :
    ∃ m, IsMul m ∧ ∀ a : Vec 32 N, log2_approx c a = some (fun i =>
      (if Flt.feq (a i) 0#32 then 0xff800000#32 else if isFinite (a i) then log2Lane m (a i) else a i) |||
        maskLane 32 (Flt.flt (a i) 0#32)) := by
  have hf : c.hasVec .flt 32 (c.regF 32 N) = true := (KLen.regs h (k := .flt) (.inl rfl) hN).1
  obtain ⟨m, hm, e⟩ := log2_pos_eq h hN
  refine ⟨m, hm, fun a => ?_⟩
  have e1 : ∀ a b : Vec 32 N, f_cmp_eq c (c.regF 32 N) a b = some (Mask.of c .flt (c.regF 32 N) (fun i => Flt.feq (a i) (b i))) :=
    fun a b => by refine f_cmp_eq' h (.inl rfl) hf ?_ ?_ ?_ <;> rfl
  unfold log2_approx
  simp only [f_cmp_lt_eq h (.inl rfl) hf, e1, isfinite_eq h (.inl rfl) hf, e a, i_blend_vm_eq h (k := .flt) (.inl rfl) hf,
    i_bit_or_eq h (k := .flt) (.inl rfl) hf, Mask.unmask_of, Option.bind_eq_bind, Option.bind_some]
  rfl

theorem feq0_eq (x : BitVec 32) : Flt.feq x 0#32 = decide (mag x = 0) := by
  have h1 : isNaN (0#32) = false := by decide
  have h2 : key (0#32) = 0 := by decide
  unfold Flt.feq ordered
  rw [h1, h2, Bool.not_false, Bool.and_true]
  rw [Bool.eq_iff_iff, Bool.and_eq_true, decide_eq_true_iff, decide_eq_true_iff]
  unfold key
  constructor
  · rintro ⟨-, g⟩; split at g <;> omega
  · intro g
    refine ⟨?_, by rw [g]; split <;> rfl⟩
    unfold isNaN; rw [g]; decide

theorem flt0_iff (x : BitVec 32) : Flt.flt x 0#32 = true ↔ isNaN x = false ∧ x.msb = true ∧ mag x ≠ 0 := by
  have h1 : isNaN (0#32) = false := by decide
  have h2 : key (0#32) = 0 := by decide
  unfold Flt.flt ordered
  rw [h1, h2, Bool.not_false, Bool.and_true, Bool.and_eq_true, decide_eq_true_iff, Bool.not_eq_true']
  unfold key
  refine and_congr_right fun _ => ?_
  constructor
  · intro g; split at g
    · exact ⟨by assumption, by omega⟩
    · omega
  · rintro ⟨g1, g2⟩; rw [if_pos g1]; omega

theorem real_zero_mag {x : BitVec 32} : real x = 0 ↔ mag x = 0 := real_zero_iff.trans num_eq_zero

theorem isNaN_ones (x : BitVec 32) : isNaN (x ||| maskLane 32 true) = true := by
  have : x ||| maskLane 32 true = BitVec.allOnes 32 := by
    rw [show maskLane 32 true = BitVec.allOnes 32 from rfl, BitVec.or_allOnes]
  rw [this]; decide

/-- C53: `log2_approx`, lane by lane. -/
theorem C53_log2_partial {c : Cfg} (h : c.Ok) (hN : c.FLen 32 N) (a : Vec 32 N) :
    ∃ res, log2_approx c a = some res ∧ ∀ i,
      (isFinite (a i) = true → 1 / 2 ^ 126 ≤ real (a i) →
        isFinite (res i) = true ∧ |real (res i) - Real.logb 2 (real (a i))| ≤ 51 / 10000) ∧
      (isNaN (a i) = true → isNaN (res i) = true) ∧
      (Flt.flt (a i) 0#32 = true → isNaN (res i) = true) ∧
      (isFinite (a i) = true → real (a i) = 0 → res i = 0xff800000#32) ∧
      (a i = 0x7f800000#32 → res i = 0x7f800000#32) := by
  obtain ⟨m, hm, e⟩ := log2_approx_eq h hN
  refine ⟨_, e a, fun i => ?_⟩
  generalize a i = x
  have pos : 0 < real x → Flt.feq x 0#32 = false ∧ Flt.flt x 0#32 = false := fun hx => by
    have g1 : mag x ≠ 0 := fun g => hx.ne' (real_zero_mag.2 g)
    have g2 := log2_msb_pos hx
    refine ⟨by rw [feq0_eq]; exact decide_eq_false g1, ?_⟩
    rw [Bool.eq_false_iff, Ne, flt0_iff]
    rintro ⟨-, g3, -⟩
    rw [g2] at g3; cases g3
  refine ⟨fun fx hx => ?_, fun hx => ?_, fun hx => ?_, fun fx hx => ?_, fun hx => ?_⟩
  · obtain ⟨g1, g2⟩ := pos (lt_of_lt_of_le (by positivity) hx)
    rw [g1, g2, fx, if_neg Bool.false_ne_true, if_pos rfl, show maskLane 32 false = 0#32 from rfl, BitVec.or_zero]
    exact log2_lane_err hm fx hx
  · have g0 : infBits 32 < mag x := by unfold isNaN at hx; simpa using hx
    have g1 : Flt.feq x 0#32 = false := by rw [feq0_eq]; exact decide_eq_false (by omega)
    have g2 : Flt.flt x 0#32 = false := by
      rw [Bool.eq_false_iff, Ne, flt0_iff]; rintro ⟨g, -⟩; rw [g] at hx; cases hx
    have g3 : isFinite x = false := by unfold isFinite; exact decide_eq_false (by omega)
    rw [g1, g2, g3, if_neg Bool.false_ne_true, if_neg Bool.false_ne_true, show maskLane 32 false = 0#32 from rfl, BitVec.or_zero]
    exact hx
  · rw [hx]; exact isNaN_ones _
  · have g0 := real_zero_mag.1 hx
    have g1 : Flt.feq x 0#32 = true := by rw [feq0_eq]; exact decide_eq_true g0
    have g2 : Flt.flt x 0#32 = false := by
      rw [Bool.eq_false_iff, Ne, flt0_iff]; rintro ⟨-, -, g⟩; exact g g0
    rw [g1, g2, if_pos rfl, show maskLane 32 false = 0#32 from rfl, BitVec.or_zero]
  · subst hx
    have g1 : Flt.feq (0x7f800000#32) 0#32 = false := by decide
    have g2 : Flt.flt (0x7f800000#32) 0#32 = false := by decide
    have g3 : isFinite (0x7f800000#32) = false := by decide
    rw [g1, g2, g3, if_neg Bool.false_ne_true, if_neg Bool.false_ne_true]
    rfl

/-- C53: the cases of `C53_log2_partial` leave out the positive numbers below `2 ^ -126` only, and for those the result is, within `0.0051`,
the logarithm of `2 ^ -127 + x / 2`. -/
theorem C53_log2_subnormal {c : Cfg} (h : c.Ok) (hN : c.FLen 32 N) (a : Vec 32 N) :
    ∃ res, log2_approx c a = some res ∧ ∀ i, 0 < real (a i) → real (a i) < 1 / 2 ^ 126 →
      isFinite (res i) = true ∧ |real (res i) - Real.logb 2 (1 / 2 ^ 127 + real (a i) / 2)| ≤ 51 / 10000 := by
  obtain ⟨m, hm, e⟩ := log2_approx_eq h hN
  refine ⟨_, e a, fun i h0 h1 => ?_⟩
  generalize a i = x at *
  obtain ⟨fx, r1, r2⟩ := log2_lane_sub hm h0 h1
  have g1 : mag x ≠ 0 := fun g => h0.ne' (real_zero_mag.2 g)
  have g2 := log2_msb_pos h0
  have g3 : Flt.feq x 0#32 = false := by rw [feq0_eq]; exact decide_eq_false g1
  have g4 : Flt.flt x 0#32 = false := by
    rw [Bool.eq_false_iff, Ne, flt0_iff]
    rintro ⟨-, g3, -⟩
    rw [g2] at g3; cases g3
  rw [g3, g4, fx, if_neg Bool.false_ne_true, if_pos rfl, show maskLane 32 false = 0#32 from rfl, BitVec.or_zero]
  refine ⟨r1, ?_⟩
  have : (1 : ℝ) / 2 ^ 127 + real x / 2 = 2 ^ (-127 : ℝ) * (1 + real x * 2 ^ 126) := by
    rw [Real.rpow_neg (by norm_num), show (127 : ℝ) = ((127 : ℕ) : ℝ) by norm_num, Real.rpow_natCast,
      show (2 : ℝ) ^ 127 = 2 * 2 ^ 126 by rw [← pow_succ']]
    generalize hA : (2 : ℝ) ^ 126 = A
    have : 0 < A := by rw [← hA]; positivity
    field_simp
  rw [this, Real.logb_mul (by positivity) (by positivity), Real.logb_rpow (by norm_num) (by norm_num)]
  exact r2

/-- The smallest positive number. -/
theorem real_min : real (1#32) = 1 / 2 ^ 149 := by
  rw [real_scaled (z := 1) (k := 149) (by decide +kernel)]; norm_num

/-- C53: so the claim that the full range of inputs is handled fails: on the smallest positive number the error exceeds `21`. -/
theorem C53_log2_subnormal_wrong {c : Cfg} (h : c.Ok) (hN : c.FLen 32 N) :
    ∃ res, log2_approx c (Vec.splat 1#32 : Vec 32 N) = some res ∧ ∀ i, 21 < |real (res i) - Real.logb 2 (real (1#32))| := by
  obtain ⟨res, e, hr⟩ := C53_log2_subnormal h hN (Vec.splat 1#32)
  refine ⟨res, e, fun i => ?_⟩
  have := (hr i (by rw [Vec.splat_apply, real_min]; positivity)
    (by rw [Vec.splat_apply, real_min]; exact one_div_lt_one_div_of_lt (by positivity) (pow_lt_pow_right₀ (by norm_num) (by norm_num)))).2
  rw [Vec.splat_apply] at this
  have h1 : Real.logb 2 (real (1#32)) = -149 := by
    rw [real_min, one_div, show ((2 : ℝ) ^ 149)⁻¹ = 2 ^ (-149 : ℝ) by rw [Real.rpow_neg (by norm_num)]; norm_cast]
    exact Real.logb_rpow (by norm_num) (by norm_num)
  have h2 : (-127 : ℝ) ≤ Real.logb 2 (1 / 2 ^ 127 + real (1#32) / 2) := by
    rw [show (-127 : ℝ) = Real.logb 2 (2 ^ (-127 : ℝ)) from (Real.logb_rpow (by norm_num) (by norm_num)).symm]
    refine Real.logb_le_logb_of_le (by norm_num) (by positivity) ?_
    rw [show (2 : ℝ) ^ (-127 : ℝ) = 1 / 2 ^ 127 by rw [Real.rpow_neg (by norm_num), one_div]; norm_cast]
    have : 0 ≤ real (1#32) := by rw [real_min]; positivity
    linarith
  rw [h1]
  rw [abs_le] at this
  rw [lt_abs]
  left
  linarith

/-! ### The hypotheses can be met -/

/-- `0x41200000` is `10`; the lanes of a vector of 12 elements on plain SSE2. -/
example : ∃ res, log2_approx Cfg.sse2Only (Vec.splat 0x41200000#32 : Vec 32 12) = some res ∧
    ∀ i, isFinite (res i) = true ∧ |real (res i) - Real.logb 2 10| ≤ 51 / 10000 := by
  obtain ⟨res, e, hr⟩ := C53_log2_partial Cfg.sse2Only_ok (N := 12) (.inr ⟨3, by decide, rfl⟩) (Vec.splat 0x41200000#32)
  refine ⟨res, e, fun i => ?_⟩
  have h10 : real (0x41200000#32) = 10 := by have := real_ofBits (x := 0x41200000#32) (z := 10) (by decide +kernel); simpa using this
  have := (hr i).1 (by rw [Vec.splat_apply]; decide) (by
    rw [Vec.splat_apply, h10]
    have : (1 : ℝ) / 2 ^ 126 ≤ 1 := by rw [div_le_one (by positivity)]; exact one_le_pow₀ (by norm_num)
    linarith)
  rw [Vec.splat_apply, h10] at this
  exact this

/-- `-1` gives NaN and `0` gives `-∞` on AVX2. -/
example : ∃ res, log2_approx Cfg.avx2Only (Vec.splat 0xbf800000#32 : Vec 32 8) = some res ∧ ∀ i, isNaN (res i) = true := by
  obtain ⟨res, e, hr⟩ := C53_log2_partial Cfg.avx2Only_ok (N := 8) (.inl ⟨.r256, rfl, rfl⟩) (Vec.splat 0xbf800000#32)
  exact ⟨res, e, fun i => (hr i).2.2.1 (by rw [Vec.splat_apply]; decide)⟩

end Simdpp
