import Verif.Props.FConvLane

/-!
# Lanes of the emulated unsigned 32-bit conversions

Before AVX-512 the x86 instructions convert signed integers only; `uint32` is reached through a correction by `2 ^ 32`.
-/

namespace Simdpp
open Spec Spec.Flt Spec.Fp

variable {w v n N : Nat}

namespace Spec.Fp

/-- Not even close to overflow: finite. -/
theorem round_finite (hw : FW w) {k : Nat} {z : Int} (h : 2 * z.natAbs < numMag w (infBits w) * 2 ^ k) :
    isFinite (round w k z) = true := by
  obtain ⟨h1, -, h3⟩ := C46_round_overflow hw k z
  rcases finite_or (round w k z) with g | g | g
  · rw [h3] at g; cases g
  · have := h1.1 g
    rw [Nat.add_mul] at this
    omega
  · exact g

/-- The error of rounding is at most half a step. -/
theorem round_err (hw : FW w) {k L : Nat} {z : Int} (hf : isFinite (round w k z) = true) (hz : z.natAbs < 2 ^ L) (hk : k ≤ L - prec w) :
    2 * |num (round w k z) * 2 ^ k - z| ≤ 2 ^ (L - prec w) := by
  obtain ⟨h1, h2⟩ := round_fin hw hf
  obtain ⟨-, -, g⟩ := rne_near z.natAbs (max (len z.natAbs - prec w) k) 0
  have hl := len_le hz
  have hq : (2 : Int) ^ (max (len z.natAbs - prec w) k) ≤ 2 ^ (L - prec w) := by
    exact_mod_cast Nat.pow_le_pow_right (n := 2) (by decide) (by omega)
  have h2' : (numMag w (mag (round w k z)) : Int) * 2 ^ k =
      (rne z.natAbs (max (len z.natAbs - prec w) k) : Int) * 2 ^ (max (len z.natAbs - prec w) k) := by exact_mod_cast h2
  rw [← h2'] at g
  have hr : num (round w k z) * 2 ^ k = if z < 0 then -((numMag w (mag (round w k z)) : Int) * 2 ^ k) else
      (numMag w (mag (round w k z)) : Int) * 2 ^ k := by
    unfold num
    rw [round_msb hw]
    by_cases hz : z < 0
    · simp [hz]
    · simp [hz]
  rw [hr]
  generalize (2 : Int) ^ (max (len z.natAbs - prec w) k) = Q at *
  generalize (2 : Int) ^ (L - prec w) = R at *
  generalize (numMag w (mag (round w k z)) : Int) * 2 ^ k = A at *
  simp only [abs_eq_max_neg] at *
  split_ifs <;> omega

end Spec.Fp

theorem i2f32_finite (sg : Bool) (x : BitVec 32) : isFinite (Hw.i2f sg 32 x : BitVec 32) = true := by
  unfold Hw.i2f ofInt
  apply round_finite fw32
  rw [numMag_inf32, pow_zero, Nat.mul_one, Int.natAbs_mul]
  have h := (val_natAbs sg x).1
  have e : ((2 : Int) ^ unit 32).natAbs = 2 ^ 149 := by rw [Int.natAbs_pow]; rfl
  rw [e]
  calc 2 * ((val sg x).natAbs * 2 ^ 149) < 2 * (2 ^ 32 * 2 ^ 149) := by
        exact Nat.mul_lt_mul_of_pos_left (Nat.mul_lt_mul_of_pos_right h (by positivity)) (by decide)
    _ = 2 ^ (1 + (32 + 149)) := by rw [pow_add, pow_add, pow_one]
    _ ≤ 2 ^ 277 := Nat.pow_le_pow_right (by decide) (by decide)

/-- The lane of the emulation. -/
def u32lane (x : BitVec 32) : BitVec 32 := Fp.add (Hw.i2f true 32 x) (if val true x < 0 then 0x4f800000#32 else 0)

/-- Below `2 ^ 31` the emulation is the conversion. -/
theorem u32lane_low {x : BitVec 32} (h : 0 ≤ val true x) : u32lane x = Hw.i2f false 32 x := by
  have hv := val_unsigned x
  rw [if_neg (by omega)] at hv
  have e : (Hw.i2f false 32 x : BitVec 32) = Hw.i2f true 32 x := by unfold Hw.i2f; rw [hv]
  unfold u32lane
  rw [if_neg (by omega), e]
  have hf := i2f32_finite true x
  obtain ⟨nx, ix⟩ := not_nan_of_finite hf
  have n0 : isNaN (0 : BitVec 32) = false := by decide
  have i0 : isInf (0 : BitVec 32) = false := by decide
  have z0 : num (0 : BitVec 32) = 0 := by decide
  unfold Fp.add
  simp only [nx, ix, n0, i0, Bool.or_self, Bool.false_eq_true, if_false, z0, Int.add_zero]
  by_cases h0 : num (Hw.i2f true 32 x : BitVec 32) = 0
  · rw [if_pos h0]
    have hm := num_eq_zero.1 h0
    have hs : (Hw.i2f true 32 x : BitVec 32).msb = false := by
      unfold Hw.i2f ofInt
      rw [round_msb fw32]
      exact decide_eq_false (by
        have : 0 ≤ val true x * 2 ^ unit 32 := Int.mul_nonneg h (by positivity)
        omega)
    apply ext_sm fw32
    · rw [mk_msb fw32 (by decide), hs]; rfl
    · rw [mk_mag fw32 (by decide), hm]
  · rw [if_neg h0, round_num fw32 hf h0]

/-- From `2 ^ 31` on the emulation is the conversion when the distance to `2 ^ 32` is a number. -/
theorem u32lane_high {x : BitVec 32} (h : val true x < 0) {s q : Nat} (hz : (val true x).natAbs = s * 2 ^ q) (hs : s < 2 ^ 24)
    (hq : q ≤ 104) : u32lane x = Hw.i2f false 32 x := by
  have hv := val_unsigned x
  rw [if_pos h] at hv
  have h31 := (val_natAbs true x).2 rfl
  unfold u32lane
  have hi : IsInt (Hw.i2f true 32 x : BitVec 32) (val true x) := ofInt_exact32 hz hs hq
  rw [if_pos h, add_isInt hi two32_32 (by omega)]
  unfold Hw.i2f; rw [hv]

theorem unit_scale (a b : Nat) (h : a = 149 + b) : (2 : Int) ^ a = 2 ^ b * 2 ^ unit 32 := by
  rw [h, pow_add, Int.mul_comm]; rfl

/-- The linear part of the error bound. -/
theorem err_lin {U A R z x : Int} (hU : 0 < U) (hx : x = z + 2 ^ 32) (h1 : 2 * |A - z * U| ≤ 128 * U)
    (h2 : 2 * |R - (A + 2 ^ 32 * U)| ≤ 256 * U) : |R - x * U| ≤ 192 * U := by
  subst hx
  rw [Int.add_mul]
  generalize z * U = B at *
  simp only [abs_eq_max_neg] at *
  omega

theorem err_neg {U A z : Int} (hU : 0 < U) (hz : z ≤ -1) (h : |A - z * U| ≤ |(-1) * U - z * U|) : A < 0 := by
  have : z * U ≤ (-1) * U := Int.mul_le_mul_of_nonneg_right hz (by omega)
  generalize z * U = B at *
  simp only [abs_eq_max_neg] at *
  omega

theorem err_pos {U A z : Int} (hU : 0 < U) (hz : -(2 ^ 31) ≤ z) (h1 : 2 * |A - z * U| ≤ 128 * U) : 0 < A + 2 ^ 32 * U := by
  have : (-(2 ^ 31)) * U ≤ z * U := Int.mul_le_mul_of_nonneg_right hz (by omega)
  generalize z * U = B at *
  simp only [abs_eq_max_neg] at *
  omega

/-- The first rounding of the emulation. -/
theorem i2f32_err {x : BitVec 32} (h : val true x < 0) (h31 : (val true x).natAbs < 2 ^ 31) :
    2 * |num (Hw.i2f true 32 x : BitVec 32) - val true x * 2 ^ unit 32| ≤ 128 * 2 ^ unit 32 ∧ num (Hw.i2f true 32 x : BitVec 32) < 0 := by
  have hf := i2f32_finite true x
  have hU : (0 : Int) < 2 ^ unit 32 := by positivity
  have hn : ((2 : Int) ^ unit 32).natAbs = 2 ^ 149 := by rw [Int.natAbs_pow]; rfl
  constructor
  · have := round_err fw32 (k := 0) (L := 180) (z := val true x * 2 ^ unit 32) hf (by
      rw [Int.natAbs_mul, hn, show 180 = 31 + 149 from rfl, pow_add]
      exact Nat.mul_lt_mul_of_pos_right h31 (by positivity)) (by decide)
    rw [pow_zero, Int.mul_one, show 180 - prec 32 = 156 from rfl, unit_scale 156 7 rfl] at this
    exact this
  · have := (C46_round_nearest (.inl rfl) 0 (val true x * 2 ^ unit 32) hf (0xbf800000#32) (by decide)).1
    have e2 : num (0xbf800000#32) = (-1) * 2 ^ unit 32 := by decide +kernel
    rw [pow_zero, Int.mul_one, Int.mul_one, e2] at this
    exact err_neg hU (by omega) this

/-- The emulation is never further than 192 from the integer (adjacent numbers are 256 apart there). -/
theorem u32lane_err {x : BitVec 32} (h : val true x < 0) :
    isFinite (u32lane x) = true ∧ |num (u32lane x) - val false x * 2 ^ unit 32| ≤ 192 * 2 ^ unit 32 := by
  have hv := val_unsigned x
  rw [if_pos h] at hv
  have h31 := (val_natAbs true x).2 rfl
  have hU : (0 : Int) < 2 ^ unit 32 := by positivity
  by_cases h31' : (val true x).natAbs = 2 ^ 31
  · have e := u32lane_high h (s := 1) (q := 31) (by rw [h31']; decide) (by decide) (by decide)
    rw [e]
    have hx : val false x = 2 ^ 31 := by omega
    have this : IsInt (Hw.i2f false 32 x : BitVec 32) (val false x) :=
      ofInt_exact32 (z := val false x) (s := 1) (q := 31) (by rw [hx]; decide) (by decide) (by decide)
    refine ⟨this.1, ?_⟩
    rw [this.2, sub_self, abs_zero]
    positivity
  · have hf := i2f32_finite true x
    obtain ⟨e1, e1'⟩ := i2f32_err h (by omega)
    unfold u32lane
    rw [if_pos h]
    obtain ⟨nx, ix⟩ := not_nan_of_finite hf
    obtain ⟨ny, iy⟩ := not_nan_of_finite two32_32.1
    have hb0 : 0 < num (Hw.i2f true 32 x : BitVec 32) + 2 ^ 32 * 2 ^ unit 32 := err_pos hU (by omega) e1
    have hadd : Fp.add (Hw.i2f true 32 x) 0x4f800000#32 = round 32 0 (num (Hw.i2f true 32 x : BitVec 32) + 2 ^ 32 * 2 ^ unit 32) := by
      unfold Fp.add
      simp only [nx, ny, ix, iy, Bool.or_self, Bool.false_eq_true, if_false]
      rw [two32_32.2, if_neg (by omega)]
    rw [hadd]
    have hlt : (num (Hw.i2f true 32 x : BitVec 32) + 2 ^ 32 * 2 ^ unit 32).natAbs < 2 ^ 181 := by
      have e3 : ((2 ^ 181 : Nat) : Int) = 2 ^ 32 * 2 ^ unit 32 := by rw [← unit_scale 181 32 rfl]; norm_cast
      generalize 2 ^ 181 = T at *
      generalize (2 : Int) ^ 32 * 2 ^ unit 32 = S at *
      omega
    have hf2 : isFinite (round 32 0 (num (Hw.i2f true 32 x : BitVec 32) + 2 ^ 32 * 2 ^ unit 32)) = true := by
      apply round_finite fw32
      rw [numMag_inf32, pow_zero, Nat.mul_one]
      calc _ < 2 * 2 ^ 181 := Nat.mul_lt_mul_of_pos_left hlt (by decide)
        _ = 2 ^ (1 + 181) := by rw [pow_add, pow_one]
        _ ≤ 2 ^ 277 := Nat.pow_le_pow_right (by decide) (by decide)
    refine ⟨hf2, ?_⟩
    have e4 := round_err fw32 (k := 0) (L := 181) hf2 hlt (by decide)
    rw [pow_zero, Int.mul_one, show 181 - prec 32 = 157 from rfl, unit_scale 157 8 rfl] at e4
    exact err_lin hU hv e1 e4

/-! ## `float` to `uint32` -/

/-- The lane of the emulation. -/
def f32u32lane (x : BitVec 32) : BitVec 32 :=
  Hw.cvtt true 32 (Fp.sub x (if Flt.fge x 0x4f000000#32 then 0x4f800000#32 else 0))

theorem two31_32 : isFinite (0x4f000000#32) = true ∧ num (0x4f000000#32) = 2 ^ 180 := by
  constructor
  · decide
  · decide +kernel

theorem fge_two31 {x : BitVec 32} (hx : isFinite x = true) : Flt.fge x 0x4f000000#32 = decide (2 ^ 180 ≤ num x) := by
  unfold Flt.fge Flt.fle Flt.ordered
  rw [(not_nan_of_finite hx).1, (not_nan_of_finite two31_32.1).1]
  simp only [Bool.not_false, Bool.and_self, Bool.true_and]
  exact decide_eq_decide.2 (by rw [key_le_iff, two31_32.2])

theorem f32u32lane_fits {x : BitVec 32} (h : Fits false 32 x) : f32u32lane x = lane 32 (truncInt x) := by
  obtain ⟨hf, hlo, hhi⟩ := h
  have hU : (2 : Int) ^ unit 32 = 2 ^ 149 := rfl
  unfold f32u32lane
  rw [fge_two31 hf]
  by_cases hg : 2 ^ 180 ≤ num x
  · rw [decide_eq_true hg, if_pos rfl]
    have hpos : num x = numMag 32 (mag x) := by
      unfold num at hg ⊢
      split_ifs at hg ⊢ with hm
      · omega
      · rfl
    have hlt : num x < 2 ^ 181 := by
      simp only [hi, Bool.false_eq_true, if_false] at hhi
      unfold truncInt at hhi
      rw [hU, Int.tdiv_eq_ediv_of_nonneg (by omega)] at hhi
      omega
    obtain ⟨s, q, e, hs, hq⟩ := numMag_split 32 (mag x)
    have hsq1 : 2 ^ 180 ≤ s * 2 ^ q := by rw [← e]; omega
    have hsq2 : s * 2 ^ q < 2 ^ 181 := by rw [← e]; omega
    have hs' : s < 2 ^ 24 := hs
    have hq1 : 156 < q := by
      have : 2 ^ 180 < 2 ^ (24 + q) := by
        rw [pow_add]
        exact Nat.lt_of_le_of_lt hsq1 (Nat.mul_lt_mul_of_pos_right hs' (by positivity))
      have := (Nat.pow_lt_pow_iff_right (a := 2) (by decide)).1 this
      omega
    have hs2 : 2 ^ 23 ≤ s := hq (by omega)
    have hq2 : q ≤ 157 := by
      have : 2 ^ (23 + q) < 2 ^ 181 := by
        rw [pow_add]
        exact Nat.lt_of_le_of_lt (Nat.mul_le_mul_right _ hs2) hsq2
      have := (Nat.pow_lt_pow_iff_right (a := 2) (by decide)).1 this
      omega
    have hq3 : q = 157 := by omega
    subst hq3
    have hnum : num x = s * 2 ^ 157 := by rw [hpos, e]; push_cast; ring
    have hneg : num (Fp.neg 0x4f800000#32) = -(2 ^ 32 * 2 ^ 149) := by rw [num_neg fw32, two32_32.2, hU]
    have hsum : num x + num (Fp.neg 0x4f800000#32) = ((s : Int) - 2 ^ 24) * 2 ^ 157 := by rw [hnum, hneg]; ring
    have hadd := num_add fw32 (x := x) (y := Fp.neg 0x4f800000#32) (s := 2 ^ 24 - s) (q := 157) hf
      (by rw [(neg_class fw32 _).2.2]; decide) (by
        rw [hsum, Int.natAbs_mul, Int.natAbs_pow, show (2 : Int).natAbs = 2 from rfl]
        congr 1; omega) (by rw [prec32]; omega) (by
        rw [numMag_inf32]
        calc (2 ^ 24 - s) * 2 ^ 157 ≤ 2 ^ 24 * 2 ^ 157 := Nat.mul_le_mul_right _ (by omega)
          _ = 2 ^ (24 + 157) := (pow_add _ _ _).symm
          _ < 2 ^ 277 := Nat.pow_lt_pow_right (by decide) (by decide))
    rw [hsum] at hadd
    have e149 : (2 : Int) ^ 157 = 2 ^ 8 * 2 ^ 149 := by norm_num
    have ht : truncInt x = s * 2 ^ 8 := by
      unfold truncInt
      rw [hnum, hU, e149, ← Int.mul_assoc, Int.mul_tdiv_cancel _ (by decide)]
    have ht2 : truncInt (Fp.sub x 0x4f800000#32) = s * 2 ^ 8 - 2 ^ 32 := by
      unfold truncInt Fp.sub
      rw [hadd.1, hU, e149, ← Int.mul_assoc, Int.mul_tdiv_cancel _ (by decide)]
      ring
    have hfit : Fits true 32 (Fp.sub x 0x4f800000#32) :=
      ⟨hadd.2, by rw [ht2]; simp only [lo, if_true]; omega, by rw [ht2]; simp only [hi, if_true]; omega⟩
    rw [cvtt_fits hfit, ht2, ht]
    have e : (s : Int) * 2 ^ 8 = (s * 2 ^ 8 - 2 ^ 32) + ((2 ^ 32 : Nat) : Int) := by push_cast; ring
    unfold lane
    rw [e, BitVec.ofInt_add, show BitVec.ofInt 32 ((2 ^ 32 : Nat) : Int) = 0 from by decide]
    simp
  · rw [decide_eq_false hg, if_neg (by decide)]
    have h0 : isFinite (Fp.neg (0 : BitVec 32)) = true ∧ num (Fp.neg (0 : BitVec 32)) = 0 := by decide
    obtain ⟨h1, h2⟩ := add_zero' fw32 hf h0.1 h0.2
    have ht : truncInt (Fp.sub x 0) = truncInt x := by unfold truncInt Fp.sub; rw [h2]
    have hfit : Fits true 32 (Fp.sub x 0) := by
      refine ⟨h1, ?_, ?_⟩
      · rw [ht]; simp only [lo, if_true, Bool.false_eq_true, if_false] at hlo ⊢; omega
      · rw [ht]
        simp only [hi, if_true]
        unfold truncInt
        rw [hU]
        by_cases hn : 0 ≤ num x
        · rw [Int.tdiv_eq_ediv_of_nonneg hn]; omega
        · have : (num x).tdiv (2 ^ 149) ≤ 0 := by
            have e : num x = -(-num x) := by omega
            rw [e, Int.neg_tdiv]
            have := Int.tdiv_nonneg (a := -num x) (b := 2 ^ 149) (by omega) (by positivity)
            omega
          omega
    rw [cvtt_fits hfit, ht]

end Simdpp
