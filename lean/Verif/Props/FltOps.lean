import Verif.Model.FltOps
import Verif.Props.FpLemmas
import Verif.Props.BlendLemmas
import Verif.Props.Compare
import Verif.Props.Samples

/-!
# C32 sign manipulation, C33 classification, C47 min/max, C44 clamp (floating point)
-/

namespace Simdpp
open Spec Spec.Fp

variable {w n : Nat} {c : Cfg}

theorem signBit_eq (hw : FW w) : signBit w = BitVec.ofNat w (2 ^ (w - 1)) := by
  rcases hw with e | e <;> subst e <;> rfl

theorem magBits_eq (hw : FW w) : magBits w = BitVec.ofNat w (2 ^ (w - 1) - 1) := by
  rcases hw with e | e <;> subst e <;> rfl

theorem sign_bit (hw : FW w) (b : Nat) : (BitVec.ofNat w (2 ^ (w - 1))).getLsbD b = decide (b = w - 1) := by
  rw [BitVec.getLsbD_ofNat, Nat.testBit_two_pow]
  have hp : 0 < w := by rcases hw with e | e <;> subst e <;> decide
  by_cases hb : b = w - 1
  · subst hb; simp [hp]
  · rw [decide_eq_false hb, decide_eq_false (Ne.symm hb), Bool.and_false]

theorem mag_bit (b : Nat) : (BitVec.ofNat w (2 ^ (w - 1) - 1)).getLsbD b = decide (b < w - 1) := by
  rw [BitVec.getLsbD_ofNat, Nat.testBit_two_pow_sub_one]
  by_cases hb : b < w - 1
  · rw [decide_eq_true hb, Bool.and_true]; exact decide_eq_true (by omega)
  · rw [decide_eq_false hb, Bool.and_false]

/-! ### C32 -/

section
variable (h : c.Ok) (hw : FW w) {r : Reg} (hr : c.hasVec .flt w r = true)
include h hw hr

theorem i_fneg_eq (a : Vec w n) : i_fneg c r a = some (fun i => Fp.neg (a i)) := by
  have e : i_bit_xor c .flt r a (Vec.splat (signBit w)) = some (fun i => Fp.neg (a i)) := by
    rw [i_bit_xor_eq h (k := .flt) hw hr, signBit_eq hw]; rfl
  unfold i_fneg
  cases r <;> dsimp only <;> split_ifs <;> first | exact e | rfl | cfg_absurd h

theorem i_fabs_eq (a : Vec w n) : i_fabs c r a = some (fun i => Hw.fabs (a i)) := by
  have e : i_bit_and c .flt r a (Vec.splat (magBits w)) = some (fun i => Hw.fabs (a i)) := by
    rw [i_bit_and_eq h (k := .flt) hw hr, magBits_eq hw]; rfl
  unfold i_fabs
  cases r <;> dsimp only <;> split_ifs <;> first | exact e | rfl | cfg_absurd h

/-- **C32.** `neg` flips the sign bit and nothing else. -/
theorem C32_neg (a : Vec w n) : ∃ res, i_fneg c r a = some res ∧
    ∀ i b, (res i).getLsbD b = ((a i).getLsbD b ^^ decide (b = w - 1)) :=
  ⟨_, i_fneg_eq h hw hr a, fun i b => by
    show (a i ^^^ BitVec.ofNat w (2 ^ (w - 1))).getLsbD b = _
    rw [BitVec.getLsbD_xor, sign_bit hw]⟩

/-- **C32.** `abs` clears the sign bit and nothing else. -/
theorem C32_abs (a : Vec w n) : ∃ res, i_fabs c r a = some res ∧
    ∀ i b, (res i).getLsbD b = ((a i).getLsbD b && decide (b ≠ w - 1)) :=
  ⟨_, i_fabs_eq h hw hr a, fun i b => by
    show (a i &&& BitVec.ofNat w (2 ^ (w - 1) - 1)).getLsbD b = _
    rw [BitVec.getLsbD_and, mag_bit]
    by_cases hb : b < w
    · congr 1; congr 1; apply propext; omega
    · rw [BitVec.getLsbD_of_ge _ _ (by omega)]; rfl⟩

/-- **C32.** `sign` keeps the sign bit and nothing else. -/
theorem C32_sign (a : Vec w n) : ∃ res, i_sign c r a = some res ∧
    ∀ i b, (res i).getLsbD b = ((a i).getLsbD b && decide (b = w - 1)) :=
  ⟨_, i_bit_and_eq h (k := .flt) hw hr _ _, fun i b => by
    show (a i &&& signBit w).getLsbD b = _
    rw [BitVec.getLsbD_and, signBit_eq hw, sign_bit hw]⟩

/-- **C32.** `copysign(m, s)` has the sign bit of `s` and the other bits of `m`. -/
theorem C32_copysign (m s : Vec w n) : ∃ res, copysign c r m s = some res ∧
    ∀ i b, (res i).getLsbD b = if b = w - 1 then (s i).getLsbD b else (m i).getLsbD b :=
  ⟨_, i_bit_select_eq h (k := .flt) hw hr _ _ _, fun i b => by
    show ((s i &&& signBit w) ||| (m i &&& ~~~ signBit w)).getLsbD b = _
    rw [BitVec.getLsbD_or, BitVec.getLsbD_and, BitVec.getLsbD_and, BitVec.getLsbD_not, signBit_eq hw, sign_bit hw]
    by_cases hb : b = w - 1
    · simp [hb]
    · by_cases hb' : b < w
      · simp [hb, hb']
      · rw [BitVec.getLsbD_of_ge _ _ (by omega), BitVec.getLsbD_of_ge _ _ (by omega)]; simp [hb]⟩

/-- **C32** in terms of values: `neg` and `abs` of a finite number are `-x` and `|x|`; the class (finite, infinite, NaN) of a lane
does not change, `copysign` of a lane with its own sign is the lane, and `neg` undoes itself. -/
theorem C32_values (a : Vec w n) : ∃ ng ab, i_fneg c r a = some ng ∧ i_fabs c r a = some ab ∧
    (∀ i, num (ng i) = -num (a i) ∧ num (ab i) = |num (a i)|) ∧
    (∀ i, Flt.isNaN (ng i) = Flt.isNaN (a i) ∧ Flt.isNaN (ab i) = Flt.isNaN (a i) ∧
      isFinite (ng i) = isFinite (a i) ∧ isFinite (ab i) = isFinite (a i)) ∧
    copysign c r a a = some a ∧ i_fneg c r ng = some a := by
  have habs : ∀ x : BitVec w, Hw.fabs x = mk w false (Flt.mag x) := by
    intro x
    apply BitVec.eq_of_toNat_eq
    rw [mk_toNat hw (mag_lt hw x)]
    have hp : 2 ^ (w - 1) - 1 < 2 ^ w := by rcases hw with e | e <;> subst e <;> decide
    unfold Hw.fabs
    rw [BitVec.toNat_and, BitVec.toNat_ofNat, Nat.mod_eq_of_lt hp, Nat.and_two_pow_sub_one_eq_mod]
    rfl
  refine ⟨_, _, i_fneg_eq h hw hr a, i_fabs_eq h hw hr a, fun i => ⟨num_neg hw _, ?_⟩, fun i => ?_, ?_, ?_⟩
  · rw [habs, num_mk hw (mag_lt hw _), Int.abs_eq_natAbs, num_natAbs]; rfl
  · obtain ⟨n1, n2, n3⟩ := neg_class hw (a i)
    refine ⟨n1, ?_, n3, ?_⟩
    · rw [habs]; unfold Flt.isNaN; rw [mk_mag hw (mag_lt hw _)]
    · rw [habs]; unfold isFinite; rw [mk_mag hw (mag_lt hw _)]
  · obtain ⟨res, h1, h2⟩ := C32_copysign h hw hr a a
    rw [h1]
    refine congrArg some (funext fun i => BitVec.eq_of_getLsbD_eq fun b _ => ?_)
    rw [h2, ite_self]
  · rw [i_fneg_eq h hw hr]
    exact congrArg some (funext fun i => neg_neg' hw _)

/-- **C32** on vectors of any length. -/
theorem C32_long {K L : Nat} (a s d : Fin K → Vec w L) :
    ∃ ng ab sg cp, Arr.apply1 (i_fneg c r) a 0 d = some ng ∧ Arr.apply1 (i_fabs c r) a 0 d = some ab ∧
      Arr.apply1 (i_sign c r) a 0 d = some sg ∧ Arr.apply2 (copysign c r) a s 0 d = some cp ∧
      ∀ j b, (Arr.flat ng j).getLsbD b = ((Arr.flat a j).getLsbD b ^^ decide (b = w - 1)) ∧
        (Arr.flat ab j).getLsbD b = ((Arr.flat a j).getLsbD b && decide (b ≠ w - 1)) ∧
        (Arr.flat sg j).getLsbD b = ((Arr.flat a j).getLsbD b && decide (b = w - 1)) ∧
        (Arr.flat cp j).getLsbD b = if b = w - 1 then (Arr.flat s j).getLsbD b else (Arr.flat a j).getLsbD b := by
  have e1 : ∀ x : Vec w L, i_sign c r x = some (fun i => x i &&& signBit w) := fun x => i_bit_and_eq h (k := .flt) hw hr _ _
  have e2 : ∀ m s : Vec w L, copysign c r m s = some (fun i => (s i &&& signBit w) ||| (m i &&& ~~~ signBit w)) :=
    fun m s => i_bit_select_eq h (k := .flt) hw hr _ _ _
  obtain ⟨ng, hng, hng'⟩ := C25_apply1 (i_fneg c r) Fp.neg (i_fneg_eq h hw hr) a d
  obtain ⟨ab, hab, hab'⟩ := C25_apply1 (i_fabs c r) Hw.fabs (i_fabs_eq h hw hr) a d
  obtain ⟨sg, hsg, hsg'⟩ := C25_apply1 (i_sign c r) (fun x => x &&& signBit w) e1 a d
  obtain ⟨cp, hcp, hcp'⟩ := C25_apply2 (copysign c r) (fun m s => (s &&& signBit w) ||| (m &&& ~~~ signBit w)) e2 a s d
  refine ⟨ng, ab, sg, cp, hng, hab, hsg, hcp, fun j b => ⟨?_, ?_, ?_, ?_⟩⟩
  · obtain ⟨x, hx, hx'⟩ := C32_neg h hw hr (n := 1) (fun _ => Arr.flat a j)
    rw [i_fneg_eq h hw hr] at hx
    rw [hng' j, ← hx' 0 b, ← Option.some.inj hx]
  · obtain ⟨x, hx, hx'⟩ := C32_abs h hw hr (n := 1) (fun _ => Arr.flat a j)
    rw [i_fabs_eq h hw hr] at hx
    rw [hab' j, ← hx' 0 b, ← Option.some.inj hx]
  · rw [hsg' j, BitVec.getLsbD_and, signBit_eq hw, sign_bit hw]
  · obtain ⟨x, hx, hx'⟩ := C32_copysign h hw hr (n := 1) (fun _ => Arr.flat a j) (fun _ => Arr.flat s j)
    have e3 := i_bit_select_eq h (k := .flt) hw hr (fun _ : Fin 1 => Arr.flat s j) (fun _ => Arr.flat a j) (Vec.splat (signBit w))
    rw [hcp' j, ← hx' 0 b, ← Option.some.inj (e3.symm.trans hx)]
    rfl

/-! ### C33 -/

theorem i_isnan_eq (a : Vec w n) : i_isnan c r a = some (Mask.of c .flt r (fun i => Flt.isNaN (a i))) := by
  have e1 : Null.isnan a = fun i => Flt.isNaN (a i) := by
    funext i; unfold Null.isnan; cases Flt.isNaN (a i) <;> rfl
  have e2 : Hw.unordP a a = fun i => Flt.isNaN (a i) := by
    funext i; unfold Hw.unordP; rw [Bool.or_self]
  have key : f_cmp_neq c r a a = some (Mask.of c .flt r (fun i => Flt.isNaN (a i))) := by
    rw [f_cmp_neq_eq h hw hr]
    congr 2; funext i
    simp only [Flt.fne, Flt.feq, Flt.ordered]
    cases Flt.isNaN (a i) <;> simp
  have hw' : w = 32 ∨ w = 64 := hw
  unfold i_isnan
  cases r <;> dsimp only <;> split_ifs <;>
    first
    | (refine retB_eq ?_ ?_ <;> first | assumption | exact Mask.of_vl (by assumption) | rfl | mask_repr h)
    | (refine retV_eq ?_ (sel_eq ?_) <;> first | rfl | assumption | mask_repr h)
    | (exact key)
    | cfg_absurd h

theorem i_isnan2_eq (a b : Vec w n) :
    i_isnan2 c r a b = some (Mask.of c .flt r (fun i => Flt.isNaN (a i) || Flt.isNaN (b i))) := by
  have e1 : Null.isnan2 a b = fun i => Flt.isNaN (a i) || Flt.isNaN (b i) := by
    funext i; unfold Null.isnan2; cases (Flt.isNaN (a i) || Flt.isNaN (b i)) <;> rfl
  have e2 : Hw.unordP a b = fun i => Flt.isNaN (a i) || Flt.isNaN (b i) := rfl
  have key : isnanOr c r a b = some (Mask.of c .flt r (fun i => Flt.isNaN (a i) || Flt.isNaN (b i))) := by
    unfold isnanOr
    rw [i_isnan_eq h hw hr, i_isnan_eq h hw hr, Option.bind_eq_bind, Option.bind_some, Option.bind_some]
    exact i_bit_or_mm_eq h (k := .flt) hw hr _ _
  have hw' : w = 32 ∨ w = 64 := hw
  unfold i_isnan2
  cases r <;> dsimp only <;> split_ifs <;>
    first
    | (refine retB_eq ?_ ?_ <;> first | assumption | exact Mask.of_vl (by assumption) | rfl | mask_repr h)
    | (refine retV_eq ?_ (sel_eq ?_) <;> first | rfl | assumption | mask_repr h)
    | (exact key)
    | cfg_absurd h

omit hw in
theorem i_fadd_eq (a b : Vec w n) : i_fadd c r a b = some (fun i => Fp.add (a i) (b i)) := by
  unfold i_fadd
  cases r <;> dsimp only <;> split_ifs <;> first | rfl | cfg_absurd h

omit hw in
theorem i_fsub_eq (a b : Vec w n) : i_fsub c r a b = some (fun i => Fp.sub (a i) (b i)) := by
  unfold i_fsub
  cases r <;> dsimp only <;> split_ifs <;> first | rfl | cfg_absurd h

omit h hr in
/-- `x - x` compares equal to zero exactly on finite numbers. -/
theorem sub_self_eq (x : BitVec w) : Flt.feq (Fp.sub x x) 0 = isFinite x := by
  have h1 : 0 < 2 ^ (w - 1) := by positivity
  have n0 : num (0 : BitVec w) = 0 := by rcases hw with e | e <;> subst e <;> rfl
  have z0 : Flt.isNaN (0 : BitVec w) = false := by rcases hw with e | e <;> subst e <;> rfl
  obtain ⟨c1, c2, c3⟩ := neg_class hw x
  unfold Fp.sub Fp.add
  rw [c1, c2, neg_msb hw, num_neg hw]
  rcases finite_or x with hx | hx | hx
  · rw [if_pos (by simp [hx])]
    simp only [Flt.feq, Flt.ordered, nan_isNaN hw]
    have : isFinite x = false := by
      unfold Flt.isNaN at hx; unfold isFinite; have := of_decide_eq_true hx; exact decide_eq_false (by omega)
    rw [this]; rfl
  · have hn : Flt.isNaN x = false := by
      unfold isInf at hx; unfold Flt.isNaN; have := of_decide_eq_true hx; exact decide_eq_false (by omega)
    have hf : isFinite x = false := by
      unfold isInf at hx; unfold isFinite; have := of_decide_eq_true hx; exact decide_eq_false (by omega)
    rw [if_neg (by simp [hn]), if_pos hx, if_pos (by rw [hx]; cases x.msb <;> rfl), hf]
    simp only [Flt.feq, Flt.ordered, nan_isNaN hw]
    rfl
  · obtain ⟨hn, hi⟩ := not_nan_of_finite hx
    rw [if_neg (by simp [hn]), if_neg (by simp [hi]), if_neg (by simp [hi]), if_pos (by omega), hx]
    have hz : Flt.isNaN (mk w (x.msb && !x.msb) 0) = false := by
      unfold Flt.isNaN; rw [mk_mag hw h1]; simp
    have hk : Flt.key (mk w (x.msb && !x.msb) 0) = Flt.key (0 : BitVec w) := by
      rw [key_eq_iff, num_mk hw h1, n0, numMag_zero]; simp
    simp only [Flt.feq, Flt.ordered, hz, z0, hk]
    simp

theorem isfinite_eq (a : Vec w n) : isfinite c r a = some (Mask.of c .flt r (fun i => isFinite (a i))) := by
  unfold isfinite
  split_ifs with hnull
  · refine retB_eq ?_ ?_
    · cases r <;> first | mask_repr h | (exfalso; cfg_absurd h)
    · funext i
      unfold Null.isfinite
      rcases finite_or (a i) with hx | hx | hx
      · have : isFinite (a i) = false := by
          unfold Flt.isNaN at hx; unfold isFinite; have := of_decide_eq_true hx; exact decide_eq_false (by omega)
        simp [hx, this]
      · have : isFinite (a i) = false := by
          unfold isInf at hx; unfold isFinite; have := of_decide_eq_true hx; exact decide_eq_false (by omega)
        simp [hx, this]
      · obtain ⟨hn, hi⟩ := not_nan_of_finite hx
        simp [hn, hi, hx]
  · rw [i_fsub_eq h hr, Option.bind_eq_bind, Option.bind_some]
    unfold f_cmp_eq
    rw [f_cmp_eq' h hw hr (g := fun i => isFinite (a i)) ?_ ?_ ?_] <;> funext i <;> exact sub_self_eq hw _

/-- **C33.** `isnan`, `isnan2` and `isfinite` on every bit pattern, on every build: all ones or all zeros. -/
theorem C33_classify (a b : Vec w n) : ∃ m m2 mf, i_isnan c r a = some m ∧ i_isnan2 c r a b = some m2 ∧ isfinite c r a = some mf ∧
    ∀ i, m.unmask i = maskLane w (Flt.isNaN (a i)) ∧
      m2.unmask i = maskLane w (Flt.isNaN (a i) || Flt.isNaN (b i)) ∧
      mf.unmask i = maskLane w (!Flt.isNaN (a i) && !isInf (a i)) :=
  ⟨_, _, _, i_isnan_eq h hw hr a, i_isnan2_eq h hw hr a b, isfinite_eq h hw hr a, fun i => by
    rw [Mask.unmask_of, Mask.unmask_of, Mask.unmask_of]
    refine ⟨rfl, rfl, ?_⟩
    show maskLane w _ = _
    congr 1
    rcases Nat.lt_trichotomy (Flt.mag (a i)) (Flt.infBits w) with hx | hx | hx
    · obtain ⟨hn, hi⟩ := not_nan_of_finite (show isFinite (a i) = true from decide_eq_true hx)
      rw [hn, hi]; exact decide_eq_true hx
    · unfold isFinite isInf; rw [decide_eq_true hx, decide_eq_false (by omega), Bool.not_true, Bool.and_false]
    · unfold isFinite Flt.isNaN; rw [decide_eq_true hx, decide_eq_false (by omega)]; rfl⟩

/-- **C33** on vectors of any length (`isfinite` away from the portable build is a subtraction and a comparison of arrays). -/
theorem C33_long {K L : Nat} (a b d : Fin K → Vec w L) (dm : Fin K → Mask w L) :
    ∃ m m2 mf, Arr.apply1 (i_isnan c r) a 0 dm = some m ∧ Arr.apply2 (i_isnan2 c r) a b 0 dm = some m2 ∧
      (if c.null then Arr.apply1 (isfinite c r) a 0 dm
       else (Arr.apply2 (i_fsub c r) a a 0 d).bind (fun t => Arr.apply2 (f_cmp_eq c r) t (fun _ => Vec.splat 0) 0 dm)) = some mf ∧
      ∀ j, Arr.flat (fun i => (m i).unmask) j = maskLane w (Flt.isNaN (Arr.flat a j)) ∧
        Arr.flat (fun i => (m2 i).unmask) j = maskLane w (Flt.isNaN (Arr.flat a j) || Flt.isNaN (Arr.flat b j)) ∧
        Arr.flat (fun i => (mf i).unmask) j = maskLane w (isFinite (Arr.flat a j)) := by
  have e1 := Arr.apply1_spec (i_isnan c r) a _ (fun i => i_isnan_eq h hw hr (a i)) 0 dm
  have e2 := Arr.apply2_spec (i_isnan2 c r) a b _ (fun i => i_isnan2_eq h hw hr (a i) (b i)) 0 dm
  have e3 := Arr.apply1_spec (isfinite c r) a _ (fun i => isfinite_eq h hw hr (a i)) 0 dm
  have e4 := Arr.apply2_spec (i_fsub c r) a a _ (fun i => i_fsub_eq h hr (a i) (a i)) 0 d
  have e5 := Arr.apply2_spec (f_cmp_eq c r) (fun i l => Fp.sub (a i l) (a i l)) (fun _ => Vec.splat 0)
    (fun i => Mask.of c .flt r (fun l => isFinite (a i l)))
    (fun i => by
      unfold f_cmp_eq
      rw [f_cmp_eq' h hw hr (g := fun l => isFinite (a i l)) ?_ ?_ ?_] <;> funext l <;> exact sub_self_eq hw _) 0 dm
  simp only [Nat.zero_le, if_true] at e1 e2 e3 e4 e5
  have e6 : (if c.null then Arr.apply1 (isfinite c r) a 0 dm
       else (Arr.apply2 (i_fsub c r) a a 0 d).bind (fun t => Arr.apply2 (f_cmp_eq c r) t (fun _ => Vec.splat 0) 0 dm)) =
       some (fun i => Mask.of c .flt r (fun l => isFinite (a i l))) := by
    split_ifs
    · exact e3
    · rw [e4, Option.bind_some]; exact e5
  refine ⟨_, _, _, e1, e2, e6, fun j => ?_⟩
  simp only [Arr.flat, Mask.unmask_of, and_self]

/-! ### C47 -/

end

/-- What `min` may do on one pair of lanes: on two numbers the result is one of them and not above either; otherwise it is one of
the operands or a NaN. -/
def IsMin (g : BitVec w → BitVec w → BitVec w) : Prop :=
  ∀ x y, (Flt.ordered x y → (g x y = x ∨ g x y = y) ∧ Flt.fle (g x y) x ∧ Flt.fle (g x y) y) ∧
    (¬ Flt.ordered x y → g x y = x ∨ g x y = y ∨ Flt.isNaN (g x y))

/-- What `max` may do. -/
def IsMax (g : BitVec w → BitVec w → BitVec w) : Prop :=
  ∀ x y, (Flt.ordered x y → (g x y = x ∨ g x y = y) ∧ Flt.fge (g x y) x ∧ Flt.fge (g x y) y) ∧
    (¬ Flt.ordered x y → g x y = x ∨ g x y = y ∨ Flt.isNaN (g x y))

section
variable (hw : FW w)
include hw

theorem isMin_all : IsMin (w := w) (fun x y => if Flt.fle x y then x else y) ∧ IsMin (w := w) Hw.minX ∧
    IsMin (w := w) Hw.minN ∧ IsMin (w := w) Hw.minM := by
  have hnan := nan_isNaN hw
  refine ⟨fun x y => ?_, fun x y => ?_, fun x y => ?_, fun x y => ?_⟩ <;>
  · have kx := Int.lt_trichotomy (Flt.key x) (Flt.key y)
    simp only [Hw.minX, Hw.minN, Hw.minM, Hw.minZ, Flt.flt, Flt.fle, Flt.ordered]
    by_cases hx : Flt.isNaN x = true <;> by_cases hy : Flt.isNaN y = true <;> simp [hx, hy]
    all_goals try grind

theorem isMax_all : IsMax (w := w) (fun x y => if Flt.fge x y then x else y) ∧ IsMax (w := w) Hw.maxX ∧
    IsMax (w := w) Hw.maxN ∧ IsMax (w := w) Hw.maxM := by
  have hnan := nan_isNaN hw
  refine ⟨fun x y => ?_, fun x y => ?_, fun x y => ?_, fun x y => ?_⟩ <;>
  · have kx := Int.lt_trichotomy (Flt.key x) (Flt.key y)
    simp only [Hw.maxX, Hw.maxN, Hw.maxM, Hw.maxZ, Flt.fgt, Flt.fge, Flt.flt, Flt.fle, Flt.ordered]
    by_cases hx : Flt.isNaN x = true <;> by_cases hy : Flt.isNaN y = true <;> simp [hx, hy]
    all_goals try grind
end

section
variable (h : c.Ok) (hw : FW w) {r : Reg} (hr : c.hasVec .flt w r = true)
include h hw hr

theorem i_fmin_ex : ∃ g : BitVec w → BitVec w → BitVec w, IsMin g ∧
    ∀ n (a b : Vec w n), i_fmin c r a b = some (fun i => g (a i) (b i)) := by
  obtain ⟨m1, m2, m3, m4⟩ := isMin_all hw
  unfold i_fmin
  cases r <;> dsimp only <;> split_ifs <;>
    first
    | exact ⟨_, m1, fun _ _ _ => rfl⟩
    | exact ⟨_, m2, fun _ _ _ => rfl⟩
    | exact ⟨_, m3, fun _ _ _ => rfl⟩
    | exact ⟨_, m4, fun _ _ _ => rfl⟩
    | (exfalso; clear m1 m2 m3 m4; cfg_absurd h)

theorem i_fmax_ex : ∃ g : BitVec w → BitVec w → BitVec w, IsMax g ∧
    ∀ n (a b : Vec w n), i_fmax c r a b = some (fun i => g (a i) (b i)) := by
  obtain ⟨m1, m2, m3, m4⟩ := isMax_all hw
  unfold i_fmax
  cases r <;> dsimp only <;> split_ifs <;>
    first
    | exact ⟨_, m1, fun _ _ _ => rfl⟩
    | exact ⟨_, m2, fun _ _ _ => rfl⟩
    | exact ⟨_, m3, fun _ _ _ => rfl⟩
    | exact ⟨_, m4, fun _ _ _ => rfl⟩
    | (exfalso; clear m1 m2 m3 m4; cfg_absurd h)

/-- **C47.** `min` and `max` on every build: in each lane where neither operand is NaN the result is one of the operands, and it
is not above (below) either of them; in the other lanes it is one of the operands or a NaN. -/
theorem C47_minmax (a b : Vec w n) : ∃ mn mx, i_fmin c r a b = some mn ∧ i_fmax c r a b = some mx ∧
    ∀ i, (Flt.ordered (a i) (b i) →
        (mn i = a i ∨ mn i = b i) ∧ Flt.fle (mn i) (a i) ∧ Flt.fle (mn i) (b i) ∧
        (mx i = a i ∨ mx i = b i) ∧ Flt.fge (mx i) (a i) ∧ Flt.fge (mx i) (b i)) ∧
      (¬ Flt.ordered (a i) (b i) → (mn i = a i ∨ mn i = b i ∨ Flt.isNaN (mn i)) ∧ (mx i = a i ∨ mx i = b i ∨ Flt.isNaN (mx i))) := by
  obtain ⟨g, hg, eg⟩ := i_fmin_ex h hw hr
  obtain ⟨g', hg', eg'⟩ := i_fmax_ex h hw hr
  refine ⟨_, _, eg n a b, eg' n a b, fun i => ⟨fun ho => ?_, fun ho => ⟨(hg _ _).2 ho, (hg' _ _).2 ho⟩⟩⟩
  obtain ⟨h1, h2, h3⟩ := (hg (a i) (b i)).1 ho
  obtain ⟨h4, h5, h6⟩ := (hg' (a i) (b i)).1 ho
  exact ⟨h1, h2, h3, h4, h5, h6⟩

/-- **C47** on vectors of any length. -/
theorem C47_minmax_long {K L : Nat} (a b d : Fin K → Vec w L) :
    ∃ mn mx, Arr.apply2 (i_fmin c r) a b 0 d = some mn ∧ Arr.apply2 (i_fmax c r) a b 0 d = some mx ∧
    ∀ j, Flt.ordered (Arr.flat a j) (Arr.flat b j) →
        (Arr.flat mn j = Arr.flat a j ∨ Arr.flat mn j = Arr.flat b j) ∧ Flt.fle (Arr.flat mn j) (Arr.flat a j) ∧
          Flt.fle (Arr.flat mn j) (Arr.flat b j) ∧
        (Arr.flat mx j = Arr.flat a j ∨ Arr.flat mx j = Arr.flat b j) ∧ Flt.fge (Arr.flat mx j) (Arr.flat a j) ∧
          Flt.fge (Arr.flat mx j) (Arr.flat b j) := by
  obtain ⟨g, hg, eg⟩ := i_fmin_ex h hw hr
  obtain ⟨g', hg', eg'⟩ := i_fmax_ex h hw hr
  obtain ⟨mn, h1, h2⟩ := C25_apply2 (i_fmin c r) g (eg L) a b d
  obtain ⟨mx, h3, h4⟩ := C25_apply2 (i_fmax c r) g' (eg' L) a b d
  refine ⟨mn, mx, h1, h3, fun j ho => ?_⟩
  obtain ⟨k1, k2, k3⟩ := (hg _ _).1 ho
  obtain ⟨k4, k5, k6⟩ := (hg' _ _).1 ho
  rw [h2 j, h4 j]
  exact ⟨k1, k2, k3, k4, k5, k6⟩

/-- **C44** for floating point: on NaN-free lanes with `lo ≤ hi` the result lies between them and is `lo`, `hi` or `v`; it equals
`v` as a number whenever `v` is between them. -/
theorem C44_clamp_flt (v lo hi : Vec w n) : ∃ res, f_clamp c r v lo hi = some res ∧
    ∀ i, ¬ Flt.isNaN (v i) → Flt.fle (lo i) (hi i) →
      Flt.fle (lo i) (res i) ∧ Flt.fle (res i) (hi i) ∧ (res i = v i ∨ res i = lo i ∨ res i = hi i) ∧
      (Flt.fle (lo i) (v i) → Flt.fle (v i) (hi i) → Flt.feq (res i) (v i)) ∧
      (Flt.flt (v i) (lo i) → Flt.feq (res i) (lo i)) ∧ (Flt.flt (hi i) (v i) → Flt.feq (res i) (hi i)) := by
  obtain ⟨g, hg, eg⟩ := i_fmin_ex h hw hr
  obtain ⟨g', hg', eg'⟩ := i_fmax_ex h hw hr
  refine ⟨fun i => g' (g (v i) (hi i)) (lo i), ?_, fun i hv hle => ?_⟩
  · unfold f_clamp
    rw [eg, Option.bind_eq_bind, Option.bind_some, eg']
  · have hl : Flt.isNaN (lo i) = false ∧ Flt.isNaN (hi i) = false ∧ Flt.key (lo i) ≤ Flt.key (hi i) := by
      simpa [Flt.fle, Flt.ordered, and_assoc] using hle
    obtain ⟨nl, nh, kl⟩ := hl
    have nv : Flt.isNaN (v i) = false := by simpa using hv
    obtain ⟨a1, a2, a3⟩ := (hg (v i) (hi i)).1 (by simp [Flt.ordered, nv, nh])
    beta_reduce
    generalize g (v i) (hi i) = t at a1 a2 a3 ⊢
    have nt : Flt.isNaN t = false := by rcases a1 with e | e <;> rw [e] <;> assumption
    obtain ⟨b1, b2, b3⟩ := (hg' t (lo i)).1 (by simp [Flt.ordered, nt, nl])
    generalize g' t (lo i) = u at b1 b2 b3 ⊢
    have nu : Flt.isNaN u = false := by rcases b1 with e | e <;> rw [e] <;> assumption
    simp only [Flt.fge, Flt.fle, Flt.feq, Flt.flt, Flt.ordered, nl, nh, nv, nt, nu, Bool.not_false, Bool.and_self, Bool.true_and,
      decide_eq_true_eq] at *
    refine ⟨b3, ?_, ?_, ?_, ?_, ?_⟩
    · rcases b1 with e | e <;> rw [e] <;> omega
    · rcases b1 with e | e
      · rcases a1 with e' | e'
        · exact .inl (e.trans e')
        · exact .inr (.inr (e.trans e'))
      · exact .inr (.inl e)
    · intro h1 h2
      rcases a1 with e' | e' <;> rcases b1 with e | e <;> have e1 := congrArg Flt.key e <;> have e2 := congrArg Flt.key e' <;> omega
    · intro h1
      rcases a1 with e' | e' <;> rcases b1 with e | e <;> have e1 := congrArg Flt.key e <;> have e2 := congrArg Flt.key e' <;> omega
    · intro h1
      rcases a1 with e' | e' <;> rcases b1 with e | e <;> have e1 := congrArg Flt.key e <;> have e2 := congrArg Flt.key e' <;> omega

end

/-! ### The hypotheses are satisfiable -/

example : ∃ res, i_fneg Cfg.sse2Only .r128 (fun _ => 0x7fc00000#32 : Vec 32 4) = some res ∧ ∀ i, res i = 0xffc00000#32 := by
  refine ⟨_, i_fneg_eq Cfg.sse2Only_ok fw32 rfl _, by decide⟩

example : ∃ res, copysign Cfg.avx2Only .r256 (fun _ => 0x3f800000#32 : Vec 32 8) (fun _ => 0x80000000#32) = some res ∧
    ∀ i b, (res i).getLsbD b = if b = 31 then (0x80000000#32).getLsbD b else (0x3f800000#32).getLsbD b :=
  C32_copysign Cfg.avx2Only_ok fw32 rfl _ _

example : ∃ m, isfinite Cfg.sse2Only .r128 (fun _ => 0x7f800000#32 : Vec 32 4) = some m ∧ ∀ i, m.unmask i = 0#32 := by
  refine ⟨_, isfinite_eq Cfg.sse2Only_ok fw32 rfl _, fun i => by rw [Mask.unmask_of]; revert i; decide⟩

example : ∃ m, i_isnan Cfg.neonA64 .r128 (fun _ => 0x7ff8000000000000#64 : Vec 64 2) = some m ∧
    ∀ i, m.unmask i = BitVec.allOnes 64 := by
  refine ⟨_, i_isnan_eq Cfg.neonA64_ok fw64 rfl _, fun i => by rw [Mask.unmask_of]; revert i; decide⟩

/-- The operands of `min` may not be exchanged on x86: `min(NaN, 1) = 1`, `min(1, NaN) = NaN`, while AArch64 gives NaN twice. -/
example : i_fmin Cfg.sse2Only .r128 (fun _ => 0x7fc00000#32 : Vec 32 4) (fun _ => 0x3f800000#32) =
      some (fun _ => 0x3f800000#32) ∧
    i_fmin Cfg.neonA64 .r128 (fun _ => 0x7fc00000#32 : Vec 32 4) (fun _ => 0x3f800000#32) = some (fun _ => 0x7fc00000#32) := by
  refine ⟨?_, ?_⟩ <;> exact congrArg some (funext (by decide))

end Simdpp
