import Verif.Props.ShiftVLemmas

/-!
# C10: shifts by a vector of counts
-/

namespace Simdpp
open Spec Sh

variable {w v n : Nat}

/-! ### instructions -/

section instr
variable {a k : Vec w n} (hk : ∀ i, (k i).toNat < w)
include hk

theorem sllv_eq : Hw.sllv a k = fun i => a i <<< (k i).toNat := funext fun i => if_pos (hk i)
theorem srlv_eq : Hw.srlv a k = fun i => bshr false (a i) (k i).toNat := funext fun i => if_pos (hk i)
theorem srav_eq : Hw.srav a k = fun i => bshr true (a i) (k i).toNat := funext fun i => by
  unfold Hw.srav; rw [if_pos (hk i)]; rfl
theorem sl_mod_eq : Hw.sl_mod a k = fun i => a i <<< (k i).toNat := funext fun i => by
  unfold Hw.sl_mod; rw [Nat.mod_eq_of_lt (hk i)]
theorem modShr_eq (s : Bool) : modShr s a k = fun i => bshr s (a i) (k i).toNat := funext fun i => by
  cases s <;> simp [modShr, Hw.sr_mod, Hw.sra_mod, bshr, Nat.mod_eq_of_lt (hk i)]

theorem vshl_u_eq (hw : IsW w) : Hw.vshl_u a k = fun i => a i <<< (k i).toNat := funext fun i => by
  have h64 := isW_lt hw
  have h8 : 8 ≤ w := by rcases hw with e | e | e | e <;> omega
  have hi := hk i
  have e := low8_ofNat h8 (k := (k i).toNat) (by omega)
  rw [BitVec.ofNat_toNat, BitVec.setWidth_eq] at e
  unfold Hw.vshl_u
  simp only [e]
  rw [if_pos (by omega)]; simp

theorem neonShrV_eq {c : Cfg} (h : c.Ok) (hn : c.neon = true) (hw : IsW w) (s : Bool) :
    neonShrV c s a k = some (fun i => bshr s (a i) (k i).toNat) := by
  have h64 := isW_lt hw
  have h8 : 8 ≤ w := by rcases hw with e | e | e | e <;> omega
  unfold neonShrV
  rw [i_ineg_eq h hw (r := .r128) rfl k (fun _ g => by
    right
    intro i e
    have hi := hk i
    rw [e, BitVec.toNat_intMin, Nat.mod_eq_of_lt (Nat.pow_lt_pow_right (by decide) (by omega))] at hi
    have h2 : w - 1 < 2 ^ (w - 1) := Nat.lt_two_pow_self
    have h3 : 7 < 2 ^ (w - 1) := Nat.lt_of_lt_of_le (by decide : 7 < 2 ^ 7) (Nat.pow_le_pow_right (by decide) (by omega))
    omega)]
  refine congrArg some (funext fun i => ?_)
  have hi := hk i
  have e := low8_neg h8 (k := (k i).toNat) (by omega)
  have e2 : BitVec.ofInt w (-((k i).toNat : Int)) = - k i := by
    rw [BitVec.ofInt_neg, BitVec.ofInt_natCast, BitVec.ofNat_toNat, BitVec.setWidth_eq]
  rw [e2] at e
  cases s
  · simp only [Bool.false_eq_true, if_false, Hw.vshl_u, bshr, e]
    by_cases g : (k i).toNat = 0
    · simp [g]
    · rw [if_neg (by omega)]; simp
  · simp only [if_true, Hw.vshl_s, bshr, e]
    by_cases g : (k i).toNat = 0
    · simp [g]
    · rw [if_neg (by omega)]; simp

theorem Null.shift_l_v_eq (hw : IsW w) : Null.shift_l_v false a k = some (fun i => a i <<< (k i).toNat) :=
  lanesM_eq_some.2 fun i => by
    have hi := hk i
    rw [← nullShl_lane hw (a i) hi]
    congr 1
    have e1 : C.wrap (C.promTy (C.lane false (k i)).ty) (C.lane false (k i)).v = ((k i).toNat : Int) := wrap_prom1 false hw (k i)
    have e2 : C.wrap (C.promTy C.uint32) ((k i).toNat : Int) = (k i).toNat := wrap_count (by have := isW_lt hw; omega)
    unfold C.shl
    simp only [e1, e2]

theorem Null.shift_r_v_eq (hw : IsW w) (s : Bool) : Null.shift_r_v s a k = some (fun i => bshr s (a i) (k i).toNat) :=
  lanesM_eq_some.2 fun i => by
    have hi := hk i
    rw [← nullShr_lane s hw (a i) hi]
    congr 1
    have e1 : C.wrap (C.promTy (C.lane false (k i)).ty) (C.lane false (k i)).v = ((k i).toNat : Int) := wrap_prom1 false hw (k i)
    have e2 : C.wrap (C.promTy C.uint32) ((k i).toNat : Int) = (k i).toNat := wrap_count (by have := isW_lt hw; omega)
    unfold C.shr
    simp only [e1, e2]

end instr

end Simdpp
