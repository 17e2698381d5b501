import Verif.Model.Blend
import Verif.Model.Compare
import Verif.Spec.Fp

/-!
# Floating-point lane operations: sign manipulation, classification, min/max, add/sub
-/

namespace Simdpp
open Spec

variable {w n : Nat}

/-! ## Instructions and C++ operators on one lane -/

/-- `_mm_min_ps/pd`: the first operand if it is less, else the second (also for NaN and for two zeros). -/
def Hw.minX (x y : BitVec w) : BitVec w := if Flt.flt x y then x else y
/-- `_mm_max_ps/pd`. -/
def Hw.maxX (x y : BitVec w) : BitVec w := if Flt.fgt x y then x else y
/-- The lesser of two numbers, the negative of two zeros. -/
def Hw.minZ (x y : BitVec w) : BitVec w := if Flt.flt x y then x else if Flt.flt y x then y else if x.msb then x else y
/-- The greater of two numbers, the positive of two zeros. -/
def Hw.maxZ (x y : BitVec w) : BitVec w := if Flt.fgt x y then x else if Flt.fgt y x then y else if x.msb then y else x
/-- `vminq_f32/f64`, `vec_min`: NaN if an operand is NaN. -/
def Hw.minN (x y : BitVec w) : BitVec w := if Flt.isNaN x || Flt.isNaN y then Fp.nan w else Hw.minZ x y
/-- `vmaxq_f32/f64`, `vec_max`. -/
def Hw.maxN (x y : BitVec w) : BitVec w := if Flt.isNaN x || Flt.isNaN y then Fp.nan w else Hw.maxZ x y
/-- `__msa_fmin_w/d`: the number if the other operand is NaN. -/
def Hw.minM (x y : BitVec w) : BitVec w :=
  if Flt.isNaN x then (if Flt.isNaN y then Fp.nan w else y) else if Flt.isNaN y then x else Hw.minZ x y
/-- `__msa_fmax_w/d`. -/
def Hw.maxM (x y : BitVec w) : BitVec w :=
  if Flt.isNaN x then (if Flt.isNaN y then Fp.nan w else y) else if Flt.isNaN y then x else Hw.maxZ x y
/-- `vabsq_f32/f64`, `vec_abs`, `std::abs`: clears the sign bit. -/
def Hw.fabs (x : BitVec w) : BitVec w := x &&& BitVec.ofNat w (2 ^ (w - 1) - 1)
/-- `vnegq_f32/f64`, unary minus: flips the sign bit. -/
def Hw.fneg (x : BitVec w) : BitVec w := x ^^^ BitVec.ofNat w (2 ^ (w - 1))
/-- Unordered compare (`_CMP_UNORD_Q`, `fcun`): an operand is NaN. -/
def Hw.unordP (a b : Vec w n) : Fin n → Bool := fun i => Flt.isNaN (a i) || Flt.isNaN (b i)

/-- `null::min` on floating-point lanes: `a <= b ? a : b`. Models /repo/simdpp/detail/null/math.h:227-235. -/
def Null.fmin (a b : Vec w n) : Vec w n := fun i => if Flt.fle (a i) (b i) then a i else b i
/-- `null::max` on floating-point lanes: `a >= b ? a : b`. Models /repo/simdpp/detail/null/math.h:237-245. -/
def Null.fmax (a b : Vec w n) : Vec w n := fun i => if Flt.fge (a i) (b i) then a i else b i
/-- `null::abs` on floating-point lanes. Models /repo/simdpp/detail/null/math.h:69-77. -/
def Null.fabs (a : Vec w n) : Vec w n := fun i => Hw.fabs (a i)
/-- `null::neg` on floating-point lanes. Models /repo/simdpp/detail/null/math.h:129-137. -/
def Null.fneg (a : Vec w n) : Vec w n := fun i => Hw.fneg (a i)
/-- `null::isnan`. Models /repo/simdpp/detail/null/math.h:39-47. -/
def Null.isnan (a : Vec w n) : Fin n → Bool := fun i => if Flt.isNaN (a i) then true else false
/-- `null::isnan2`. Models /repo/simdpp/detail/null/math.h:59-67. -/
def Null.isnan2 (a b : Vec w n) : Fin n → Bool := fun i => if Flt.isNaN (a i) || Flt.isNaN (b i) then true else false
/-- `null::isfinite`. Models /repo/simdpp/detail/null/math.h:49-57. -/
def Null.isfinite (a : Vec w n) : Fin n → Bool := fun i => if Flt.isNaN (a i) || Fp.isInf (a i) then false else true

/-- The sign mask as a scalar operand: `0x80000000` or `0x8000000000000000`. -/
def signBit (w : Nat) : BitVec w := if w = 32 then BitVec.ofNat w 0x80000000 else BitVec.ofNat w 0x8000000000000000
/-- `0x7fffffff` or `0x7fffffffffffffff`. -/
def magBits (w : Nat) : BitVec w := if w = 32 then BitVec.ofNat w 0x7fffffff else BitVec.ofNat w 0x7fffffffffffffff

/-! ## Sign manipulation -/

/-- `i_fneg`. Models /repo/simdpp/detail/insn/f_neg.h:25-84. -/
def i_fneg (c : Cfg) (r : Reg) (a : Vec w n) : Option (Vec w n) :=
  match r with
  | .r128 =>
    if w = 32 then
      if c.null ∨ c.neonNoFltSp then some (Null.fneg a)
      else if c.sse2 ∨ c.altivec ∨ c.msa then i_bit_xor c .flt r a (Vec.splat (signBit w))
      else if c.neonFltSp then some (a.map Hw.fneg)
      else none
    else
      if c.sse2 ∨ c.vsx206 ∨ c.msa then i_bit_xor c .flt r a (Vec.splat (signBit w))
      else if c.neon64 then some (a.map Hw.fneg)
      else if c.null ∨ c.neon32 ∨ c.altivec then some (Null.fneg a)
      else none
  | .r256 => if c.avx then i_bit_xor c .flt r a (Vec.splat (signBit w)) else none
  | .r512 => if c.avx512f then i_bit_xor c .flt r a (Vec.splat (signBit w)) else none

/-- `i_fabs`. Models /repo/simdpp/detail/insn/f_abs.h:25-87. -/
def i_fabs (c : Cfg) (r : Reg) (a : Vec w n) : Option (Vec w n) :=
  match r with
  | .r128 =>
    if w = 32 then
      if c.null ∨ c.neonNoFltSp then some (Null.fabs a)
      else if c.sse2 ∨ c.msa then i_bit_and c .flt r a (Vec.splat (magBits w))
      else if c.neonFltSp then some (a.map Hw.fabs)
      else if c.altivec then some (a.map Hw.fabs)
      else none
    else
      if c.sse2 ∨ c.msa then i_bit_and c .flt r a (Vec.splat (magBits w))
      else if c.neon64 then some (a.map Hw.fabs)
      else if c.vsx206 then some (a.map Hw.fabs)
      else if c.null ∨ c.neon32 ∨ c.altivec then some (Null.fabs a)
      else none
  | .r256 => if c.avx then i_bit_and c .flt r a (Vec.splat (magBits w)) else none
  | .r512 => if c.avx512f then i_bit_and c .flt r a (Vec.splat (magBits w)) else none

/-- `i_sign`. Models /repo/simdpp/detail/insn/f_sign.h:25-35. -/
def i_sign (c : Cfg) (r : Reg) (a : Vec w n) : Option (Vec w n) := i_bit_and c .flt r a (Vec.splat (signBit w))

/-- `copysign(m, s)`. Models /repo/simdpp/core/f_copysign.h:29-41. -/
def copysign (c : Cfg) (r : Reg) (m s : Vec w n) : Option (Vec w n) :=
  i_bit_select c .flt r s m (Vec.splat (signBit w))

/-! ## Addition and subtraction -/

/-- `i_fadd`: every target has an IEEE addition (`add` in the portable branch is the C++ operator).
Models /repo/simdpp/detail/insn/f_add.h:24-88. -/
def i_fadd (c : Cfg) (r : Reg) (a b : Vec w n) : Option (Vec w n) :=
  match r with
  | .r128 =>
    if w = 32 then
      if c.null ∨ c.neonNoFltSp then some (a.map2 Fp.add b)
      else if c.sse2 then some (a.map2 Fp.add b)
      else if c.neonFltSp then some (a.map2 Fp.add b)
      else if c.altivec then some (a.map2 Fp.add b)
      else if c.msa then some (a.map2 Fp.add b)
      else none
    else
      if c.sse2 then some (a.map2 Fp.add b)
      else if c.neon64 then some (a.map2 Fp.add b)
      else if c.vsx206 then some (a.map2 Fp.add b)
      else if c.msa then some (a.map2 Fp.add b)
      else if c.null ∨ c.neon32 ∨ c.altivec then some (a.map2 Fp.add b)
      else none
  | .r256 => if c.avx then some (a.map2 Fp.add b) else none
  | .r512 => if c.avx512f then some (a.map2 Fp.add b) else none

/-- `i_fsub`. Models /repo/simdpp/detail/insn/f_sub.h:24-94. -/
def i_fsub (c : Cfg) (r : Reg) (a b : Vec w n) : Option (Vec w n) :=
  match r with
  | .r128 =>
    if w = 32 then
      if c.null ∨ c.neonNoFltSp then some (a.map2 Fp.sub b)
      else if c.sse2 then some (a.map2 Fp.sub b)
      else if c.neonFltSp then some (a.map2 Fp.sub b)
      else if c.altivec then some (a.map2 Fp.sub b)
      else if c.msa then some (a.map2 Fp.sub b)
      else none
    else
      if c.sse2 then some (a.map2 Fp.sub b)
      else if c.neon64 then some (a.map2 Fp.sub b)
      else if c.vsx206 then some (a.map2 Fp.sub b)
      else if c.null ∨ c.neon ∨ c.altivec then some (a.map2 Fp.sub b)
      else if c.msa then some (a.map2 Fp.sub b)
      else none
  | .r256 => if c.avx then some (a.map2 Fp.sub b) else none
  | .r512 => if c.avx512f then some (a.map2 Fp.sub b) else none

/-! ## Classification -/

/-- `i_isnan`. Models /repo/simdpp/detail/insn/f_isnan.h:25-101. -/
def i_isnan (c : Cfg) (r : Reg) (a : Vec w n) : Option (Mask w n) :=
  match r with
  | .r128 =>
    if w = 32 then
      if c.null ∨ c.neonNoFltSp then retB c .flt r (Null.isnan a)
      else if c.avx512vl then retB c .flt r (Hw.unordP a a)
      else if c.avx then retV c .flt r (Hw.sel (Hw.unordP a a))
      else if c.sse2 then retV c .flt r (Hw.sel (Hw.unordP a a))
      else if c.neon ∨ c.altivec then f_cmp_neq c r a a
      else if c.msa then retV c .flt r (Hw.sel (Hw.unordP a a))
      else none
    else
      if c.avx512vl then retB c .flt r (Hw.unordP a a)
      else if c.avx then retV c .flt r (Hw.sel (Hw.unordP a a))
      else if c.sse2 then retV c .flt r (Hw.sel (Hw.unordP a a))
      else if c.neon64 ∨ c.vsx206 then f_cmp_neq c r a a
      else if c.msa then retV c .flt r (Hw.sel (Hw.unordP a a))
      else if c.null ∨ c.neon32 ∨ c.altivec then retB c .flt r (Null.isnan a)
      else none
  | .r256 =>
    if c.avx then
      if c.avx512vl then retB c .flt r (Hw.unordP a a) else retV c .flt r (Hw.sel (Hw.unordP a a))
    else none
  | .r512 => if c.avx512f then retB c .flt r (Hw.unordP a a) else none

/-- `bit_or(isnan(a), isnan(b))`. -/
def isnanOr (c : Cfg) (r : Reg) (a b : Vec w n) : Option (Mask w n) := do
  i_bit_or_mm c .flt r (← i_isnan c r a) (← i_isnan c r b)

/-- `i_isnan2`. Models /repo/simdpp/detail/insn/f_isnan2.h:27-103. -/
def i_isnan2 (c : Cfg) (r : Reg) (a b : Vec w n) : Option (Mask w n) :=
  match r with
  | .r128 =>
    if w = 32 then
      if c.null then retB c .flt r (Null.isnan2 a b)
      else if c.avx512vl then retB c .flt r (Hw.unordP a b)
      else if c.avx then retV c .flt r (Hw.sel (Hw.unordP a b))
      else if c.sse2 then retV c .flt r (Hw.sel (Hw.unordP a b))
      else if c.neon ∨ c.altivec then isnanOr c r a b
      else if c.msa then retV c .flt r (Hw.sel (Hw.unordP a b))
      else none
    else
      if c.avx512vl then retB c .flt r (Hw.unordP a b)
      else if c.avx then retV c .flt r (Hw.sel (Hw.unordP a b))
      else if c.sse2 then retV c .flt r (Hw.sel (Hw.unordP a b))
      else if c.neon64 ∨ c.vsx206 then isnanOr c r a b
      else if c.msa then retV c .flt r (Hw.sel (Hw.unordP a b))
      else if c.null ∨ c.neon32 ∨ c.altivec then retB c .flt r (Null.isnan2 a b)
      else none
  | .r256 =>
    if c.avx then
      if c.avx512vl then retB c .flt r (Hw.unordP a b) else retV c .flt r (Hw.sel (Hw.unordP a b))
    else none
  | .r512 => if c.avx512f then retB c .flt r (Hw.unordP a b) else none

/-- `isfinite`: portable test, else `(a - a) == 0`. Models /repo/simdpp/core/f_isfinite.h:30-56. -/
def isfinite (c : Cfg) (r : Reg) (a : Vec w n) : Option (Mask w n) :=
  if c.null then retB c .flt r (Null.isfinite a)
  else do
    let d ← i_fsub c r a a
    f_cmp_eq c r d (Vec.splat 0)

/-! ## Minimum, maximum, clamp -/

/-- `i_min` on floats. Models /repo/simdpp/detail/insn/f_min.h:25-95. -/
def i_fmin (c : Cfg) (r : Reg) (a b : Vec w n) : Option (Vec w n) :=
  match r with
  | .r128 =>
    if w = 32 then
      if c.null ∨ c.neonNoFltSp then some (Null.fmin a b)
      else if c.sse2 then some (a.map2 Hw.minX b)
      else if c.neon then some (a.map2 Hw.minN b)
      else if c.altivec then some (a.map2 Hw.minN b)
      else if c.msa then some (a.map2 Hw.minM b)
      else none
    else
      if c.sse2 then some (a.map2 Hw.minX b)
      else if c.neon64 then some (a.map2 Hw.minN b)
      else if c.vsx206 then some (a.map2 Hw.minN b)
      else if c.msa then some (a.map2 Hw.minM b)
      else if c.null ∨ c.neon32 ∨ c.altivec then some (Null.fmin a b)
      else none
  | .r256 => if c.avx then some (a.map2 Hw.minX b) else none
  | .r512 => if c.avx512f then some (a.map2 Hw.minX b) else none

/-- `i_max` on floats. Models /repo/simdpp/detail/insn/f_max.h:25-95. -/
def i_fmax (c : Cfg) (r : Reg) (a b : Vec w n) : Option (Vec w n) :=
  match r with
  | .r128 =>
    if w = 32 then
      if c.null ∨ c.neonNoFltSp then some (Null.fmax a b)
      else if c.sse2 then some (a.map2 Hw.maxX b)
      else if c.neon then some (a.map2 Hw.maxN b)
      else if c.altivec then some (a.map2 Hw.maxN b)
      else if c.msa then some (a.map2 Hw.maxM b)
      else none
    else
      if c.sse2 then some (a.map2 Hw.maxX b)
      else if c.neon64 then some (a.map2 Hw.maxN b)
      else if c.vsx206 then some (a.map2 Hw.maxN b)
      else if c.msa then some (a.map2 Hw.maxM b)
      else if c.null ∨ c.neon32 ∨ c.altivec then some (Null.fmax a b)
      else none
  | .r256 => if c.avx then some (a.map2 Hw.maxX b) else none
  | .r512 => if c.avx512f then some (a.map2 Hw.maxX b) else none

/-- `clamp(v, lo, hi) = max(min(v, hi), lo)` on floats. Models /repo/simdpp/core/f_clamp.h:32-41. -/
def f_clamp (c : Cfg) (r : Reg) (v lo hi : Vec w n) : Option (Vec w n) := do
  let t ← i_fmin c r v hi
  i_fmax c r t lo

end Simdpp
