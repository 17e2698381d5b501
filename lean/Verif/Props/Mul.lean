import Verif.Props.MulLemmas
import Mathlib.Data.BitVec
import Mathlib.Tactic.LinearCombination

/-! C03: integer multiplication, register by register. -/

namespace Simdpp
open Spec Sh

variable {w v n N : Nat}

theorem mulLane_lane (sg : Bool) (hw : 0 < w) (hv : 2 * w ≤ v) (x y : BitVec w) :
    Hw.mulLane sg v x y = Spec.lane v (val sg x * val sg y) := by
  rw [← val_mulLane sg hw hv, lane_val]

theorem mul_lane (sg : Bool) (x y : BitVec w) : x * y = Spec.lane w (val sg x * val sg y) := by
  unfold Spec.lane
  rw [BitVec.ofInt_mul]
  exact congrArg₂ (· * ·) (lane_val sg x).symm (lane_val sg y).symm

/-- The high half of a double-width lane. -/
theorem high_lane (sg : Bool) (z : BitVec (2 * w)) (hw : 0 < w) : z.extractLsb' w w = Spec.lane w (val sg z / 2 ^ w) := by
  have h2 : (2 : Int) ^ (2 * w) = 2 ^ w * 2 ^ w := by rw [← pow_add]; congr 1; omega
  have base : z.extractLsb' w w = Spec.lane w ((z.toNat : Int) / 2 ^ w) := by
    apply BitVec.eq_of_toNat_eq
    rw [BitVec.extractLsb'_toNat, Nat.shiftRight_eq_div_pow]
    unfold Spec.lane
    rw [show (z.toNat : Int) / 2 ^ w = ((z.toNat / 2 ^ w : Nat) : Int) by push_cast; rfl]
    rw [BitVec.ofInt_natCast, BitVec.toNat_ofNat]
  cases sg
  · exact base
  · rw [base]
    unfold val
    rw [if_pos rfl, BitVec.toInt_eq_toNat_cond]
    split_ifs with g
    · rfl
    · have e : ((z.toNat : Int) - ((2 ^ (2 * w) : Nat) : Int)) / 2 ^ w = (z.toNat : Int) / 2 ^ w + (-1) * 2 ^ w := by
        push_cast
        rw [h2, show (z.toNat : Int) - 2 ^ w * 2 ^ w = (z.toNat : Int) + -(2 ^ w) * 2 ^ w by ring,
          Int.add_mul_ediv_right _ _ (by positivity)]
        ring
      rw [e]
      unfold Spec.lane
      rw [BitVec.ofInt_add, BitVec.ofInt_mul]
      have : BitVec.ofInt w (2 ^ w) = 0 := by
        apply BitVec.eq_of_toNat_eq
        simp
      rw [this, mul_zero, add_zero]

/-! ## Portable code -/

theorem prod_range16 (sg : Bool) (x y : BitVec 16) : C.InR ⟨sg, 32⟩ (val sg x) ∧ C.InR ⟨sg, 32⟩ (val sg y) ∧
    C.InR ⟨sg, 32⟩ (val sg x * val sg y) ∧ C.InR (C.promTy ⟨sg, 16⟩) (val sg y) := by
  cases sg
  · have h1 := toNat_lt16 x; have h2 := toNat_lt16 y
    have h3 : (0 : Int) ≤ x.toNat := Int.natCast_nonneg _
    have h4 : (0 : Int) ≤ y.toNat := Int.natCast_nonneg _
    simp only [val, Bool.false_eq_true, if_false]
    refine ⟨by inr, by inr, ?_, ?_⟩
    · constructor <;> simp only [C.Ty.min, C.Ty.max, Bool.false_eq_true, if_false] <;> norm_num <;> nlinarith
    · constructor <;> simp only [C.Ty.min, C.Ty.max, C.promTy, C.int32] <;> norm_num <;> omega
  · have h1 := C.toInt_bounds16 x; have h2 := C.toInt_bounds16 y
    simp only [val, if_true]
    refine ⟨by inr, by inr, ?_, ?_⟩
    · constructor <;> simp only [C.Ty.min, C.Ty.max, if_true] <;> norm_num <;> nlinarith
    · constructor <;> simp only [C.Ty.min, C.Ty.max, C.promTy, C.int32] <;> norm_num <;> omega

theorem mul_i32 (sg : Bool) (x y : BitVec 16) :
    C.mul (C.cast ⟨sg, 32⟩ (C.lane sg x)) (C.lane sg y) = some ⟨⟨sg, 32⟩, val sg x * val sg y⟩ := by
  obtain ⟨h1, h2, h3, -⟩ := prod_range16 sg x y
  have e : C.cast ⟨sg, 32⟩ (C.lane sg x) = ⟨⟨sg, 32⟩, val sg x⟩ := C.cast_inR (s := ⟨sg, 16⟩) (by simp) h1
  rw [e]
  exact C.mul_inR (s := ⟨sg, 32⟩) (t := ⟨sg, 16⟩) (u := ⟨sg, 32⟩) (by cases sg <;> decide) (by simp) h1 h2 h3

theorem mul_i64 (sg : Bool) (x y : BitVec 32) :
    C.mul (C.cast ⟨sg, 64⟩ (C.lane sg x)) (C.lane sg y) = some ⟨⟨sg, 64⟩, val sg x * val sg y⟩ := by
  have hr : C.InR ⟨sg, 64⟩ (val sg x) ∧ C.InR ⟨sg, 64⟩ (val sg y) ∧ C.InR ⟨sg, 64⟩ (val sg x * val sg y) := by
    cases sg
    · have h1 := toNat_lt32 x; have h2 := toNat_lt32 y
      have h3 : (0 : Int) ≤ x.toNat := Int.natCast_nonneg _
      have h4 : (0 : Int) ≤ y.toNat := Int.natCast_nonneg _
      simp only [val, Bool.false_eq_true, if_false]
      refine ⟨by inr, by inr, ?_⟩
      constructor <;> simp only [C.Ty.min, C.Ty.max, Bool.false_eq_true, if_false] <;> norm_num <;> nlinarith
    · have h1 := C.toInt_bounds32 x; have h2 := C.toInt_bounds32 y
      simp only [val, if_true]
      refine ⟨by inr, by inr, ?_⟩
      constructor <;> simp only [C.Ty.min, C.Ty.max, if_true] <;> norm_num <;> nlinarith
  have e : C.cast ⟨sg, 64⟩ (C.lane sg x) = ⟨⟨sg, 64⟩, val sg x⟩ := C.cast_inR (s := ⟨sg, 32⟩) (by simp) hr.1
  rw [e]
  exact C.mul_inR (s := ⟨sg, 64⟩) (t := ⟨sg, 32⟩) (u := ⟨sg, 64⟩) (by cases sg <;> decide) (by simp) hr.1 hr.2.1 hr.2.2

theorem Null.mull16_eq (sg : Bool) (a b : Vec 16 n) : Null.mull sg 32 a b = some (Hw.vmull sg 32 a b) := by
  refine lanesM_eq_some.2 fun i => ?_
  rw [mul_i32]
  exact congrArg some (mulLane_lane sg (by decide) (by decide) _ _).symm

theorem Null.mull32_eq (sg : Bool) (a b : Vec 32 n) : Null.mull sg 64 a b = some (Hw.vmull sg 64 a b) := by
  refine lanesM_eq_some.2 fun i => ?_
  rw [mul_i64]
  exact congrArg some (mulLane_lane sg (by decide) (by decide) _ _).symm

theorem Null.mul_hi_eq (sg : Bool) (a b : Vec 16 n) : Null.mul_hi sg a b = some (Hw.mulhi sg a b) := by
  refine lanesM_eq_some.2 fun i => ?_
  obtain ⟨-, -, h3, -⟩ := prod_range16 sg (a i) (b i)
  have es := C.shr_inR (s := ⟨sg, 32⟩) (t := C.int32) (u := ⟨sg, 32⟩) (k := 16) (by cases sg <;> decide) (by simp) h3 (by simp)
      (by rw [show C.promTy C.int32 = C.int32 by decide]; inr) (by decide)
  rw [mul_i32, Option.bind_some]
  refine (congrArg (Option.map (C.toLane 16)) es).trans ?_
  refine congrArg some ?_
  have := high_lane sg (Hw.mulLane sg (2 * 16) (a i) (b i)) (by decide)
  rw [val_mulLane sg (by decide) (by decide)] at this
  exact this.symm

/-- 32-bit lanes: unsigned arithmetic, always defined. -/
theorem Null.mul32_eq (a b : Vec 32 n) : Null.mul false a b = some (Hw.mullo a b) := by
  refine lanesM_eq_some.2 fun i => ?_
  unfold C.mul
  simp only [C.lane_ty, C.lane_v_unsigned]
  rw [show C.usual ⟨false, 32⟩ ⟨false, 32⟩ = C.uint32 by decide, C.arith_u32]
  refine congrArg some ?_
  have h1 := toNat_lt32 (a i); have h2 := toNat_lt32 (b i)
  rw [C.wrap_u32 (by omega) h1, C.wrap_u32 (by omega) h2, C.toLane_mk, C.ofInt_emod_32]
  exact (mul_lane false (a i) (b i)).symm

/-- 16-bit lanes: `int` arithmetic, undefined when the product exceeds `INT_MAX`. -/
theorem Null.mul16_eq (a b : Vec 16 n) (hp : ∀ i, (a i).toNat * (b i).toNat < 2 ^ 31) : Null.mul false a b = some (Hw.mullo a b) := by
  refine lanesM_eq_some.2 fun i => ?_
  have h1 := toNat_lt16 (a i); have h2 := toNat_lt16 (b i)
  have h3 : ((a i).toNat : Int) * (b i).toNat < 2 ^ 31 := by exact_mod_cast hp i
  have h4 : (0 : Int) ≤ ((a i).toNat : Int) * (b i).toNat := by positivity
  have e : C.mul (C.lane false (a i)) (C.lane false (b i)) = some ⟨C.int32, (a i).toNat * (b i).toNat⟩ := by
    refine C.mul_inR (s := ⟨false, 16⟩) (t := ⟨false, 16⟩) (u := C.int32) (by decide) (by decide) (by inr) (by inr) ?_
    constructor <;> simp only [C.Ty.min, C.Ty.max, C.int32, if_true] <;> norm_num <;> omega
  rw [e]
  exact congrArg some (mul_lane false (a i) (b i)).symm

theorem Null.mul16_ub (a b : Vec 16 n) (hp : ∃ i, 2 ^ 31 ≤ (a i).toNat * (b i).toNat) : Null.mul false a b = none := by
  obtain ⟨i, hi⟩ := hp
  by_contra g
  obtain ⟨res, e⟩ := Option.ne_none_iff_exists'.1 g
  have := lanesM_eq_some.1 e i
  have h1 := toNat_lt16 (a i); have h2 := toNat_lt16 (b i)
  have h3 : (2 : Int) ^ 31 ≤ ((a i).toNat : Int) * (b i).toNat := by exact_mod_cast hi
  unfold C.mul at this
  simp only [C.lane_ty, C.lane_v_unsigned] at this
  rw [show C.usual ⟨false, 16⟩ ⟨false, 16⟩ = C.int32 by decide, C.wrap_i32 (by omega) (by omega), C.wrap_i32 (by omega) (by omega),
    C.arith_i32_ub (by right; norm_num at h3; omega)] at this
  cases this

/-! ## Low half -/

/-- The low half of a 64-bit lane made of two 32-bit ones. -/
theorem low32_at {m : Nat} (hm : n = 2 * m) (a : Vec 32 n) {q : Nat} (hq : q < m) :
    ((a.recast 64 m).at_ q).setWidth 32 = a.at_ (2 * q) := by
  apply BitVec.eq_of_getLsbD_eq
  intro k hk
  rw [BitVec.getLsbD_setWidth, Vec.at_lt _ hq, Vec.recast_getLsbD]
  simp only [hk, show k < 64 by omega, decide_true, Bool.true_and]
  unfold Vec.bit
  congr 2 <;> omega

theorem mul_ep32_at {m : Nat} (sg : Bool) (a b : Vec 64 m) {q : Nat} (hq : q < m) :
    (Hw.mul_ep32 sg a b).at_ q = Hw.mulLane sg 64 ((a.at_ q).setWidth 32) ((b.at_ q).setWidth 32) := by
  rw [Vec.at_lt _ hq, Vec.at_lt _ hq, Vec.at_lt _ hq]; rfl

theorem mul_ep32_even {m : Nat} (sg : Bool) (hm : n = 2 * m) (a b : Vec 32 n) {q : Nat} (hq : q < m) :
    ((Hw.mul_ep32 sg (a.recast 64 m) (b.recast 64 m)).recast 32 n).at_ (2 * q) = a.at_ (2 * q) * b.at_ (2 * q) := by
  rw [recast_at (w := 64) (v := 32) (q := 2) (by decide) (by decide) rfl (by omega), show 2 * q / 2 = q by omega,
    show 2 * q % 2 = 0 by omega, mul_ep32_at _ _ _ hq, low32_at hm a hq, low32_at hm b hq, Nat.zero_mul]
  have := mulLane_low sg (w := 32) (v := 64) (by decide) (a.at_ (2 * q)) (b.at_ (2 * q))
  rw [← this]
  apply BitVec.eq_of_getLsbD_eq
  intro k hk
  rw [BitVec.getLsbD_extractLsb', BitVec.getLsbD_setWidth, Nat.zero_add]

/-- A product from the products of the halves. -/
theorem mul_halves (x y : BitVec 32) :
    ((Hw.mulLane false 32 (x.extractLsb' 0 16) (y.extractLsb' 16 16) + Hw.mulLane false 32 (x.extractLsb' 16 16) (y.extractLsb' 0 16))
      <<< 16) + Hw.mulLane false 32 (x.extractLsb' 0 16) (y.extractLsb' 0 16) = x * y := by
  have key : ∀ z : BitVec 32, z = (z.extractLsb' 0 16).setWidth 32 + (z.extractLsb' 16 16).setWidth 32 * 65536#32 := by
    intro z
    apply BitVec.eq_of_toNat_eq
    have := z.isLt
    simp only [BitVec.toNat_add, BitVec.toNat_mul, BitVec.toNat_setWidth, BitVec.extractLsb'_toNat, BitVec.toNat_ofNat,
      Nat.shiftRight_eq_div_pow]
    norm_num
    omega
  have e16 : ∀ z : BitVec 32, z <<< 16 = z * 65536#32 := by
    intro z
    rw [BitVec.shiftLeft_eq_mul_twoPow]; rfl
  rw [e16]
  unfold Hw.mulLane Hw.extLane
  simp only [Bool.false_eq_true, if_false]
  conv_rhs => rw [key x, key y]
  generalize (x.extractLsb' 0 16).setWidth 32 = xl
  generalize (x.extractLsb' 16 16).setWidth 32 = xh
  generalize (y.extractLsb' 0 16).setWidth 32 = yl
  generalize (y.extractLsb' 16 16).setWidth 32 = yh
  have h0 : (65536#32) * 65536#32 = 0 := by decide
  generalize 65536#32 = P at *
  linear_combination (-(xh * yh)) * h0

variable {c : Cfg} (h : c.Ok)

include h in
/-- 32-bit lanes. -/
theorem i_mul_lo32_eq {r : Reg} (hr : c.hasInt 32 r = true) (hn : n = r.lanes 32) (a b : Vec 32 n) :
    i_mul_lo32 c r a b = some (Hw.mullo a b) := by
  unfold i_mul_lo32
  cases r
  case r256 => exact if_pos hr
  case r512 => exact if_pos hr
  dsimp only
  change n = 4 at hn
  subst hn
  by_cases g1 : c.null
  · rw [if_pos g1]; exact Null.mul32_eq a b
  rw [if_neg g1]
  by_cases g2 : c.sse41
  · rw [if_pos g2]
  rw [if_neg g2]
  by_cases g3 : c.sse2
  · rw [if_pos g3]
    obtain ⟨a1, ea, pa⟩ := moveL1_eq h (k := .int) (w := 32) (n := 4) (s := 1) iw32 (by decide) (by decide) a
    obtain ⟨b1, eb, pb⟩ := moveL1_eq h (k := .int) (w := 32) (n := 4) (s := 1) iw32 (by decide) (by decide) b
    rw [ea, eb]
    simp only [Option.bind_eq_bind, Option.bind_some]
    rw [shuffle2_gather h (k := .int) (r := .r128) (n := 4) rfl rfl (by decide) (by decide) (by decide) (by decide), Option.bind_some,
      i_permute4_32_eq h true (k := .int) (r := .r128) (n := 4) rfl rfl (by decide) (by decide) (by decide) (by decide)]
    refine congrArg some (ext_at fun j hj => ?_)
    rw [mullo_at _ _ hj]
    have ev := fun (x y : Vec 32 4) q hq => mul_ep32_even (m := 2) (n := 4) false rfl x y (q := q) hq
    rcases (by omega : j = 0 ∨ j = 1 ∨ j = 2 ∨ j = 3) with e | e | e | e <;> subst e <;> rw [gather_at _ _ hj] <;>
      simp only [sel4] <;> norm_num <;> rw [gather_at _ _ (by decide)] <;> simp only [sel4] <;> norm_num
    · exact ev a b 0 (by decide)
    · rw [← pa 0 (by decide), ← pb 0 (by decide)]; exact ev a1 b1 0 (by decide)
    · exact ev a b 1 (by decide)
    · rw [← pa 2 (by decide), ← pb 2 (by decide)]; exact ev a1 b1 1 (by decide)
  rw [if_neg g3]
  by_cases g4 : c.neon ∨ c.vsx207
  · rw [if_pos g4]
  rw [if_neg g4]
  by_cases g5 : c.altivec
  · rw [if_pos g5]
    obtain ⟨sa, ea, pa⟩ := moveL1_eq h (k := .int) (w := 16) (n := 8) (s := 1) iw16 (by decide) (by decide) (a.recast 16 8)
    obtain ⟨sb, eb, pb⟩ := moveL1_eq h (k := .int) (w := 16) (n := 8) (s := 1) iw16 (by decide) (by decide) (b.recast 16 8)
    change (do let sa ← moveL1 c .int 1 (a.recast 16 8); _) = _
    rw [ea, eb]
    simp only [Option.bind_eq_bind, Option.bind_some]
    rw [i_iadd_eq h iw32 (r := .r128) rfl, Option.bind_some, shift_l_imm_eq h iw32 (r := .r128) rfl (by decide) _ (by decide),
      Option.bind_some, i_iadd_eq h iw32 (r := .r128) rfl]
    refine congrArg some (funext fun i => ?_)
    have hi := i.isLt
    simp only [Hw.vmul_eo, Nat.add_zero]
    rw [pa _ (by omega), pb _ (by omega)]
    have e0 : ∀ (z : Vec 32 4), (z.recast 16 8).at_ (2 * i.val) = (z i).extractLsb' 0 16 := by
      intro z
      rw [recast_at (w := 32) (v := 16) (q := 2) (by decide) (by decide) rfl rfl, show 2 * i.val / 2 = i.val by omega,
        show 2 * i.val % 2 = 0 by omega, Nat.zero_mul, Vec.at_fin]
    have e1 : ∀ (z : Vec 32 4), (z.recast 16 8).at_ (2 * i.val + 1) = (z i).extractLsb' 16 16 := by
      intro z
      rw [recast_at (w := 32) (v := 16) (q := 2) (by decide) (by decide) rfl rfl, show (2 * i.val + 1) / 2 = i.val by omega,
        show (2 * i.val + 1) % 2 = 1 by omega, Nat.one_mul, Vec.at_fin]
    rw [e0, e0, e1, e1]
    exact mul_halves (a i) (b i)
  rw [if_neg g5]
  by_cases g6 : c.msa
  · rw [if_pos g6]
  · exfalso; clear a b hr; cfg_absurd h

include h in
/-- 16-bit lanes, outside the portable backend. -/
theorem i_mul_lo16_eq {r : Reg} (hr : c.hasInt 16 r = true) (a b : Vec 16 n)
    (hp : c.null = true → ∀ i, (a i).toNat * (b i).toNat < 2 ^ 31) : i_mul_lo16 c r a b = some (Hw.mullo a b) := by
  unfold i_mul_lo16
  cases r
  case r256 => exact if_pos hr
  case r512 => exact if_pos hr
  dsimp only
  by_cases g1 : c.null
  · rw [if_pos g1]; exact Null.mul16_eq a b (hp g1)
  rw [if_neg g1]
  by_cases g2 : c.sse2 ∨ c.neon ∨ c.altivec ∨ c.msa
  · rw [if_pos g2]
  · exfalso; clear a b hr hp; cfg_absurd h

end Simdpp
