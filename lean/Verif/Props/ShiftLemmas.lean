import Verif.Model.Shift
import Verif.Props.BitwiseLemmas
import Verif.Props.Arith

/-! Evaluation of the uniform shifts on every configuration. -/

namespace Simdpp
open Spec

variable {w n : Nat}

/-- Right shift of a lane, arithmetic if `s`. -/
def bshr (s : Bool) (x : BitVec w) (k : Nat) : BitVec w := if s then x.sshiftRight k else x >>> k

theorem shl_spec (s : Bool) (x : BitVec w) (k : Nat) : x <<< k = lane w (val s x * 2 ^ k) := by
  unfold lane
  rw [BitVec.ofInt_mul]
  have h1 : BitVec.ofInt w (val s x) = x := lane_val s x
  rw [h1, BitVec.shiftLeft_eq_mul_twoPow]
  congr 1
  apply BitVec.eq_of_toNat_eq
  rw [BitVec.toNat_twoPow, BitVec.toNat_ofInt]
  have : ((2:Int) ^ k % ((2 ^ w : Nat) : Int)) = (((2 ^ k) % (2 ^ w) : Nat) : Int) := by push_cast; rfl
  rw [this, Int.toNat_natCast]

theorem val_bshr (s : Bool) (x : BitVec w) (k : Nat) : val s (bshr s x k) = val s x / 2 ^ k := by
  cases s
  · simp [val, bshr, Nat.shiftRight_eq_div_pow]
  · simp [val, bshr, BitVec.toInt_sshiftRight, Int.shiftRight_eq_div_pow]

theorem shr_spec (s : Bool) (x : BitVec w) (k : Nat) : bshr s x k = lane w (val s x / 2 ^ k) := by
  rw [← val_bshr, lane_val]

/-! ### portable backend -/

theorem isW_lt (hw : IsW w) : w ≤ 64 := by rcases hw with rfl | rfl | rfl | rfl <;> omega

theorem promTy_u (hw : IsW w) (s : Bool) :
    C.promTy ⟨s, w⟩ = if w < 32 then C.int32 else ⟨s, w⟩ := by
  unfold C.promTy; rfl

theorem wrap_prom1 (s : Bool) (hw : IsW w) (x : BitVec w) :
    C.wrap (C.promTy ⟨s, w⟩) (val s x) = val s x := by
  have h := wrap_prom s hw x
  have : C.usual ⟨s, w⟩ ⟨s, w⟩ = C.promTy ⟨s, w⟩ := by
    rcases hw with rfl | rfl | rfl | rfl <;> cases s <;> decide
  rwa [this] at h

theorem wrap_count {k : Nat} (hk : k < 64) :
    C.wrap (C.promTy C.uint32) ((k : Nat) : Int) = k := by
  exact C.wrap_u32 (by omega) (by omega)

theorem nullShr_lane (s : Bool) (hw : IsW w) (x : BitVec w) {k : Nat} (hk : k < w) :
    (C.shr (C.lane s x) ⟨C.uint32, k⟩).map (C.toLane w) = some (bshr s x k) := by
  have hw' := isW_lt hw
  have hb : w ≤ (C.promTy ⟨s, w⟩).bits := by rcases hw with rfl | rfl | rfl | rfl <;> simp [C.promTy, C.int32]
  unfold C.shr
  rw [C.lane_ty]
  show Option.map _ (if 0 ≤ C.wrap (C.promTy C.uint32) (k:Int) ∧
    C.wrap (C.promTy C.uint32) (k:Int) < (C.promTy ⟨s, w⟩).bits then
      some (⟨_, C.wrap (C.promTy ⟨s, w⟩) (val s x) / 2 ^ (C.wrap (C.promTy C.uint32) (k:Int)).toNat⟩ : C.Val) else none) = _
  rw [wrap_count (by omega), wrap_prom1 s hw, if_pos (by omega)]
  simp only [Option.map_some, C.toLane_mk, Int.toNat_natCast]
  rw [shr_spec]; rfl

theorem nullShl_lane (hw : IsW w) (x : BitVec w) {k : Nat} (hk : k < w) :
    (C.shl (C.lane false x) ⟨C.uint32, k⟩).map (C.toLane w) = some (x <<< k) := by
  have hw' := isW_lt hw
  have hb : w ≤ (C.promTy ⟨false, w⟩).bits := by
    rcases hw with rfl | rfl | rfl | rfl <;> simp [C.promTy, C.int32]
  unfold C.shl
  rw [C.lane_ty]
  simp only []
  show Option.map _ (if 0 ≤ C.wrap (C.promTy C.uint32) (k:Int) ∧
    C.wrap (C.promTy C.uint32) (k:Int) < (C.promTy ⟨false, w⟩).bits then _ else none) = _
  have hl : (C.lane false x).v = val false x := rfl
  rw [hl, wrap_count (by omega), wrap_prom1 false hw, if_pos (by omega), Int.toNat_natCast]
  have fin : ∀ (t : C.Ty), w ≤ t.bits →
      C.toLane w ⟨t, C.wrap t (val false x * 2 ^ k)⟩ = x <<< k := by
    intro t ht
    rw [shl_spec false x k, C.toLane_mk]
    unfold lane
    apply BitVec.eq_of_toInt_eq
    rw [BitVec.toInt_ofInt, BitVec.toInt_ofInt]
    have hd : ((2 ^ w : Nat) : Int) ∣ ((2 ^ t.bits : Nat) : Int) := by
      exact Int.natCast_dvd_natCast.2 (Nat.pow_dvd_pow 2 ht)
    unfold C.wrap
    split
    · exact Int.bmod_bmod_of_dvd (by exact_mod_cast hd)
    · rw [← Int.emod_bmod (n := 2 ^ w)]
      have : val false x * 2 ^ k % (2 ^ t.bits : Int) % ((2 ^ w : Nat) : Int)
          = val false x * 2 ^ k % ((2 ^ w : Nat) : Int) := by
        apply Int.emod_emod_of_dvd
        exact_mod_cast hd
      rw [this, Int.emod_bmod]
  rcases hw with rfl | rfl | rfl | rfl
  · have hx := toNat_lt8 x
    have hp : (2:Int) ^ k ≤ 2 ^ 7 := by exact_mod_cast Nat.pow_le_pow_right (by omega) (by omega : k ≤ 7)
    have hp0 : (0:Int) < 2 ^ k := by positivity
    rw [if_pos (by rfl : (C.promTy ⟨false, 8⟩).signed = true), if_pos, Option.map_some, fin _ (by decide)]
    simp only [val, Bool.false_eq_true, if_false]
    refine ⟨by omega, ?_⟩
    show _ < (2:Int) ^ 32
    have : (x.toNat : Int) * 2 ^ k ≤ 256 * 2 ^ 7 := Int.mul_le_mul (by omega) hp (by omega) (by omega)
    omega
  · have hx := toNat_lt16 x
    have hp : (2:Int) ^ k ≤ 2 ^ 15 := by exact_mod_cast Nat.pow_le_pow_right (by omega) (by omega : k ≤ 15)
    have hp0 : (0:Int) < 2 ^ k := by positivity
    rw [if_pos (by rfl : (C.promTy ⟨false, 16⟩).signed = true), if_pos, Option.map_some, fin _ (by decide)]
    simp only [val, Bool.false_eq_true, if_false]
    refine ⟨by omega, ?_⟩
    show _ < (2:Int) ^ 32
    have : (x.toNat : Int) * 2 ^ k ≤ 65536 * 2 ^ 15 := Int.mul_le_mul (by omega) hp (by omega) (by omega)
    omega
  · rw [if_neg (by decide : ¬ (C.promTy ⟨false, 32⟩).signed = true), Option.map_some, fin _ (by decide)]
  · rw [if_neg (by decide : ¬ (C.promTy ⟨false, 64⟩).signed = true), Option.map_some, fin _ (by decide)]

theorem Null.shift_r_eq (s : Bool) (hw : IsW w) (a : Vec w n) {k : Nat} (hk : k < w) :
    Null.shift_r s a k = some (fun i => bshr s (a i) k) :=
  lanesM_eq_some.2 fun _ => nullShr_lane s hw _ hk

theorem Null.shift_l_eq (hw : IsW w) (a : Vec w n) {k : Nat} (hk : k < w) :
    Null.shift_l false a k = some (fun i => a i <<< k) :=
  lanesM_eq_some.2 fun _ => nullShl_lane hw _ hk

/-! ### NEON and modulo-count shifts -/

theorem low8_ofNat (hw : 8 ≤ w) {k : Nat} (hk : k < 128) :
    ((BitVec.ofNat w k).setWidth 8).toInt = k := by
  have hp : 2 ^ 8 ≤ 2 ^ w := Nat.pow_le_pow_right (by omega) hw
  rw [BitVec.toInt_eq_toNat_cond]
  simp only [BitVec.toNat_setWidth, BitVec.toNat_ofNat]
  rw [Nat.mod_eq_of_lt (a := k) (b := 2 ^ w) (by omega), Nat.mod_eq_of_lt (a := k) (b := 2 ^ 8) (by omega)]
  rw [if_pos (by omega)]

theorem low8_neg (hw : 8 ≤ w) {k : Nat} (hk : k < 128) :
    ((BitVec.ofInt w (-(k : Int))).setWidth 8).toInt = -(k : Int) := by
  have : (BitVec.ofInt w (-(k : Int))).setWidth 8 = BitVec.ofInt 8 (-(k:Int)) := by
    apply BitVec.eq_of_toNat_eq
    simp only [BitVec.toNat_setWidth, BitVec.toNat_ofInt]
    have hd : ((2 ^ 8 : Nat) : Int) ∣ ((2 ^ w : Nat) : Int) :=
      Int.natCast_dvd_natCast.2 (Nat.pow_dvd_pow 2 hw)
    have e := Int.emod_emod_of_dvd (-(k:Int)) hd
    have h0 : 0 ≤ (-(k:Int)) % ((2 ^ w : Nat) : Int) := Int.emod_nonneg _ (by positivity)
    have h1 : 0 ≤ (-(k:Int)) % ((2 ^ 8 : Nat) : Int) := Int.emod_nonneg _ (by positivity)
    omega
  rw [this, BitVec.toInt_ofInt, Int.bmod_eq_of_le] <;> omega

theorem Hw.vshl_u_splat (hw : IsW w) (a : Vec w n) {k : Nat} (hk : k < w) :
    Hw.vshl_u a (Vec.splat (BitVec.ofNat w k)) = fun i => a i <<< k := by
  have := isW_lt hw
  have h8 : 8 ≤ w := by rcases hw with rfl | rfl | rfl | rfl <;> omega
  funext i
  simp only [Hw.vshl_u, Vec.splat_apply, low8_ofNat h8 (show k < 128 by omega)]
  rw [if_pos (by omega), Int.toNat_natCast]

theorem neonShr_eq (s : Bool) (hw : IsW w) (a : Vec w n) {k : Nat} (hk : k < w) :
    neonShr s a k = fun i => bshr s (a i) k := by
  have := isW_lt hw
  have h8 : 8 ≤ w := by rcases hw with rfl | rfl | rfl | rfl <;> omega
  funext i
  by_cases h0 : k = 0
  · subst h0
    cases s <;> simp [neonShr, Hw.vshl_u, Hw.vshl_s, bshr]
  · cases s <;>
    · simp only [neonShr, Hw.vshl_u, Hw.vshl_s, Bool.false_eq_true, if_false, if_true, Vec.splat_apply,
        low8_neg h8 (show k < 128 by omega), bshr]
      rw [if_neg (by omega), Int.neg_neg, Int.toNat_natCast]

theorem ofNat_mod (hw : IsW w) {k : Nat} (hk : k < w) : (BitVec.ofNat w k).toNat % w = k := by
  have : k < 2 ^ w := Nat.lt_of_lt_of_le hk (Nat.le_of_lt Nat.lt_two_pow_self)
  rw [BitVec.toNat_ofNat, Nat.mod_eq_of_lt this, Nat.mod_eq_of_lt hk]

theorem Hw.sl_mod_splat (hw : IsW w) (a : Vec w n) {k : Nat} (hk : k < w) :
    Hw.sl_mod a (Vec.splat (BitVec.ofNat w k)) = fun i => a i <<< k := by
  funext i; simp only [Hw.sl_mod, Vec.splat_apply, ofNat_mod hw hk]

theorem modShr_splat (s : Bool) (hw : IsW w) (a : Vec w n) {k : Nat} (hk : k < w) :
    modShr s a (Vec.splat (BitVec.ofNat w k)) = fun i => bshr s (a i) k := by
  funext i
  cases s <;> simp only [modShr, Hw.sr_mod, Hw.sra_mod, bshr, Vec.splat_apply, ofNat_mod hw hk,
    Bool.false_eq_true, if_false, if_true]

/-- The 64-bit MSA count built from a splat of 32-bit counts has the right low bits. -/
theorem msa_count {k : Nat} (hk : k < 64) (i : Fin n) :
    ((Vec.recast 64 n (Vec.splat (BitVec.ofNat 32 k) : Vec 32 (2 * n))) i).toNat % 64 = k := by
  have : ((Vec.recast 64 n (Vec.splat (BitVec.ofNat 32 k) : Vec 32 (2 * n))) i).toNat % 2 ^ 6 = k := by
    apply Nat.eq_of_testBit_eq
    intro j
    rw [Nat.testBit_mod_two_pow]
    by_cases hj : j < 6
    · simp only [hj, decide_true, Bool.true_and]
      have e : ((Vec.recast 64 n (Vec.splat (BitVec.ofNat 32 k) : Vec 32 (2 * n))) i).toNat.testBit j
          = ((Vec.recast 64 n (Vec.splat (BitVec.ofNat 32 k) : Vec 32 (2 * n))) i).getLsbD j := rfl
      rw [e, Vec.recast_getLsbD]
      have hi := i.isLt
      have hq : (i.val * 64 + j) / 32 = 2 * i.val := by omega
      have hr : (i.val * 64 + j) % 32 = j := by omega
      simp only [show j < 64 by omega, decide_true, Bool.true_and, Vec.bit, hq, hr]
      rw [Vec.at_lt _ (by omega), Vec.splat_apply, BitVec.getLsbD_ofNat]
      simp [show j < 32 by omega]
    · simp only [hj, decide_false, Bool.false_and]
      symm
      apply Nat.testBit_lt_two_pow
      calc k < 2 ^ 6 := hk
        _ ≤ 2 ^ j := Nat.pow_le_pow_right (by omega) (by omega)
  exact this

theorem x86Shr_eq (s : Bool) (a : Vec w n) (k : Nat) : x86Shr s a k = fun i => bshr s (a i) k := by
  cases s <;> rfl

/-! ### wide lanes -/

theorem i_shift_l_wide_eq {c : Cfg} (h : c.Ok) (hw : IsW w) {r : Reg} (hr : c.hasInt w r = true)
    (a : Vec w n) {k : Nat} (hk : k < w) :
    i_shift_l_wide c r a k = some (fun i => a i <<< k) := by
  have hmsa : w = 64 → Hw.sl_mod a (Vec.recast w n (Vec.splat (BitVec.ofNat 32 k) : Vec 32 (2 * n)))
      = fun i => a i <<< k := by
    rintro rfl; funext i; simp only [Hw.sl_mod, msa_count hk]
  unfold i_shift_l_wide
  split <;> split_ifs <;>
    first
    | rfl
    | exact Null.shift_l_eq hw a hk
    | exact congrArg some (Hw.vshl_u_splat hw a hk)
    | exact congrArg some (Hw.sl_mod_splat hw a hk)
    | exact congrArg some (hmsa (by assumption))
    | cfg_absurd h

/-- x86 shifts accept every count. -/
theorem i_shift_l_wide_x86 {c : Cfg} (h : c.Ok) (hs : c.sse2 = true) {r : Reg}
    (hr : c.hasInt w r = true) (a : Vec w n) (k : Nat) :
    i_shift_l_wide c r a k = some (fun i => a i <<< k) := by
  unfold i_shift_l_wide
  split <;> split_ifs <;>
    first
    | rfl
    | cfg_absurd h

theorem i_shift_l_imm_wide_eq {c : Cfg} (h : c.Ok) (hw : IsW w) {r : Reg} (hr : c.hasInt w r = true)
    (a : Vec w n) {k : Nat} (hk : k < w) :
    i_shift_l_imm_wide c r k a = some (fun i => a i <<< k) := by
  unfold i_shift_l_imm_wide
  rw [if_pos hk]
  split <;> split_ifs <;>
    first
    | rfl
    | exact i_shift_l_wide_eq h hw hr a hk
    | exact congrArg some (Hw.sl_mod_splat hw a hk)
    | cfg_absurd h

theorem shift_l_imm_wide_eq {c : Cfg} (h : c.Ok) (hw : IsW w) {r : Reg} (hr : c.hasInt w r = true)
    (a : Vec w n) {k : Nat} (hk : k < w) :
    shift_l_imm_wide c r k a = some (fun i => a i <<< k) := by
  unfold shift_l_imm_wide
  split_ifs with h0
  · subst h0; simp
  · exact i_shift_l_imm_wide_eq h hw hr a hk

theorem i_shift_r_u64_eq {c : Cfg} (h : c.Ok) {r : Reg} (hr : c.hasInt 64 r = true)
    (a : Vec 64 n) {k : Nat} (hk : k < 64) :
    i_shift_r_u64 c r a k = some (fun i => bshr false (a i) k) := by
  have hw : IsW 64 := Or.inr (Or.inr (Or.inr rfl))
  have hmsa : modShr false a (Vec.recast 64 n (Vec.splat (BitVec.ofNat 32 k) : Vec 32 (2 * n)))
      = fun i => bshr false (a i) k := by
    funext i; simp [modShr, Hw.sr_mod, msa_count hk, bshr]
  unfold i_shift_r_u64
  split <;> split_ifs <;>
    first
    | rfl
    | exact Null.shift_r_eq _ hw a hk
    | exact congrArg some (neonShr_eq _ hw a hk)
    | exact congrArg some (modShr_splat _ hw a hk)
    | exact congrArg some hmsa
    | cfg_absurd h

theorem sra64_bias (x : BitVec 64) {k : Nat} (hk : k < 64) :
    (x + BitVec.ofNat 64 0x8000000000000000) >>> k - (BitVec.ofNat 64 0x8000000000000000) >>> k
      = x.sshiftRight k := by
  apply BitVec.eq_of_toInt_eq
  have hx := C.toInt_bounds64 x
  have hxn : ((x + BitVec.ofNat 64 0x8000000000000000).toNat : Int) = x.toInt + 2 ^ 63 := by
    rw [BitVec.toNat_add, BitVec.toInt_eq_toNat_cond]
    have := x.isLt
    simp only [BitVec.toNat_ofNat]
    split_ifs <;> omega
  have hk2 : (2:Int) ^ 63 = 2 ^ (63 - k) * 2 ^ k := by
    rw [← Int.pow_add]; congr 1; omega
  have hpos : (0:Int) < 2 ^ k := by positivity
  have hdiv : (x.toInt + 2 ^ 63) / 2 ^ k = x.toInt / 2 ^ k + 2 ^ (63 - k) := by
    rw [hk2]; exact Int.add_mul_ediv_right _ _ (by omega)
  have hle : (2:Int) ^ (63 - k) ≤ 2 ^ 63 := by
    exact_mod_cast Nat.pow_le_pow_right (by omega) (by omega)
  have hb1 : -(2:Int) ^ (63 - k) ≤ x.toInt / 2 ^ k := by
    apply Int.le_ediv_of_mul_le hpos
    rw [Int.neg_mul, ← hk2]; omega
  have hb2 : x.toInt / 2 ^ k < 2 ^ (63 - k) := by
    apply Int.ediv_lt_of_lt_mul hpos
    rw [← hk2]; omega
  rw [BitVec.toInt_sshiftRight, Int.shiftRight_eq_div_pow, BitVec.toInt_sub]
  have key : ∀ y : BitVec 64, ((y >>> k).toInt).bmod (2 ^ 64) = ((y.toNat : Int) / 2 ^ k).bmod (2^64) := by
    intro y
    have e : (((y >>> k).toNat : Nat) : Int) = (y.toNat : Int) / 2 ^ k := by
      rw [BitVec.toNat_ushiftRight, Nat.shiftRight_eq_div_pow]; push_cast; rfl
    rw [← e, BitVec.toInt_eq_toNat_bmod, Int.bmod_bmod]
  rw [Int.sub_bmod, key, key, hxn, hdiv, ← Int.sub_bmod]
  have : ((BitVec.ofNat 64 0x8000000000000000).toNat : Int) / 2 ^ k = 2 ^ (63 - k) := by
    show (2 : Int) ^ 63 / 2 ^ k = _
    rw [hk2]; exact Int.mul_ediv_cancel _ (by omega)
  rw [this]
  rw [show x.toInt / 2 ^ k + 2 ^ (63 - k) - 2 ^ (63 - k) = x.toInt / 2 ^ k by ring]
  rw [Int.bmod_eq_of_le]
  · norm_cast
  · show -(2 ^ 64 / 2 : Int) ≤ _; omega
  · show _ < (2 ^ 64 + 1 : Int) / 2; omega

theorem emulSra64_eq {c : Cfg} (h : c.Ok) {r : Reg} (hr : c.hasInt 64 r = true)
    (a : Vec 64 n) {k : Nat} (hk : k < 64) :
    emulSra64 c r a k = some (fun i => bshr true (a i) k) := by
  have hw : IsW 64 := Or.inr (Or.inr (Or.inr rfl))
  unfold emulSra64
  simp only [i_iadd_eq h hw hr, i_shift_r_u64_eq h hr _ hk, i_isub_eq h hw hr, Option.bind_eq_bind,
    Option.bind_some, Vec.splat_apply]
  congr 1; funext i
  simp only [bshr, if_true, Bool.false_eq_true, if_false]
  exact sra64_bias (a i) hk

theorem i_shift_r_wide_eq {c : Cfg} (h : c.Ok) (s : Bool) (hw : IsW w) {r : Reg}
    (hr : c.hasInt w r = true) (a : Vec w n) {k : Nat} (hk : k < w) :
    i_shift_r_wide c s r a k = some (fun i => bshr s (a i) k) := by
  unfold i_shift_r_wide
  by_cases h64 : w = 64
  · subst h64
    have hmsa : modShr true a (Vec.recast 64 n (Vec.splat (BitVec.ofNat 32 k) : Vec 32 (2 * n)))
        = fun i => bshr true (a i) k := by
      funext i; simp [modShr, Hw.sra_mod, msa_count hk, bshr]
    rw [if_pos rfl]
    cases s
    · rw [if_neg (by decide)]; exact i_shift_r_u64_eq h hr a hk
    · rw [if_pos rfl]
      split <;> split_ifs <;>
        first
        | rfl
        | exact emulSra64_eq h hr a hk
        | exact Null.shift_r_eq _ hw a hk
        | exact congrArg some (neonShr_eq _ hw a hk)
        | exact congrArg some (modShr_splat _ hw a hk)
        | exact congrArg some hmsa
        | cfg_absurd h
  · rw [if_neg h64]
    split <;> split_ifs <;>
      first
      | exact Null.shift_r_eq _ hw a hk
      | exact congrArg some (x86Shr_eq _ a k)
      | exact congrArg some (neonShr_eq _ hw a hk)
      | exact congrArg some (modShr_splat _ hw a hk)
      | cfg_absurd h

theorem i_shift_r_wide_x86 {c : Cfg} (h : c.Ok) (s : Bool) (hs : c.sse2 = true) (h64 : w ≠ 64) {r : Reg}
    (hr : c.hasInt w r = true) (a : Vec w n) (k : Nat) :
    i_shift_r_wide c s r a k = some (fun i => bshr s (a i) k) := by
  unfold i_shift_r_wide
  rw [if_neg h64]
  split <;> split_ifs <;>
    first
    | exact congrArg some (x86Shr_eq _ a k)
    | cfg_absurd h

theorem i_shift_r_imm_wide_eq {c : Cfg} (h : c.Ok) (s : Bool) (hw : IsW w) {r : Reg}
    (hr : c.hasInt w r = true) (a : Vec w n) {k : Nat} (hk : k < w) :
    i_shift_r_imm_wide c s r k a = some (fun i => bshr s (a i) k) := by
  unfold i_shift_r_imm_wide
  rw [if_pos hk]
  cases s <;> cases r <;> dsimp only <;> split_ifs <;>
    first
    | rfl
    | exact i_shift_r_wide_eq h _ hw hr a hk
    | exact congrArg some (x86Shr_eq _ a k)
    | exact congrArg some (modShr_splat _ hw a hk)
    | cfg_absurd h

theorem shift_r_imm_wide_eq {c : Cfg} (h : c.Ok) (s : Bool) (hw : IsW w) {r : Reg}
    (hr : c.hasInt w r = true) (a : Vec w n) {k : Nat} (hk : k < w) :
    shift_r_imm_wide c s r k a = some (fun i => bshr s (a i) k) := by
  unfold shift_r_imm_wide
  split_ifs with h0
  · subst h0; cases s <;> simp [bshr]
  · exact i_shift_r_imm_wide_eq h s hw hr a hk

end Simdpp
