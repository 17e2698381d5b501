import Verif.Model.Ftz
import Verif.Model.FReduce

/-!
# 32-bit NEON: reductions that flush to zero

The NEON branches of `reduce_add`, `reduce_mul`, `reduce_min`, `reduce_max` of `float32` vectors with the arithmetic of `Spec/Ftz.lean`.
Simplified: `none` on other builds (`Model/FReduce.lean` covers them).
-/

namespace Simdpp
open Spec

variable {N : Nat}

/-- `a2 = vpadd_f32(vget_low_f32(a), vget_high_f32(a)); a2 = vpadd_f32(a2, a2); vget_lane_f32(a2, 0)`.
Models /repo/simdpp/detail/insn/f_reduce_add.h:47-50. -/
def zradd32 (c : Cfg) (a : Vec 32 4) : Option (BitVec 32) :=
  if c.neonZ then
    let a2 : Vec 32 2 := Hw.pairs Ftz.add (Hw.part 2 0 a) (Hw.part 2 1 a)
    let a2 := Hw.pairs Ftz.add a2 a2
    Hw.extr a2 0
  else none

/-- `a2 = vmul_f32(vget_low_f32(a), vget_high_f32(a)); a2 = vmul_f32(a2, vext_f32(a2, a2, 1)); vget_lane_f32(a2, 0)`.
Models /repo/simdpp/detail/insn/f_reduce_mul.h:42-45. -/
def zrmul32 (c : Cfg) (a : Vec 32 4) : Option (BitVec 32) :=
  if c.neonZ then
    let a2 : Vec 32 2 := (Hw.part 2 0 a).map2 Ftz.mul (Hw.part 2 1 a)
    let e : Vec 32 2 := fun i => a2.at_ ((i.val + 1) % 2)
    Hw.extr (a2.map2 Ftz.mul e) 0
  else none

/-- `vpmin_f32`, `vpmax_f32` of two lanes. -/
def zmmOp (isMax : Bool) (x y : BitVec 32) : BitVec 32 := mmPairOp isMax (Ftz.flush x) (Ftz.flush y)

/-- Models /repo/simdpp/detail/insn/f_reduce_min.h:44-47, f_reduce_max.h:44-47. -/
def zrmm32 (c : Cfg) (isMax : Bool) (a : Vec 32 4) : Option (BitVec 32) :=
  if c.neonZ then
    let a2 : Vec 32 2 := Hw.pairs (zmmOp isMax) (Hw.part 2 0 a) (Hw.part 2 1 a)
    let a2 := Hw.pairs (zmmOp isMax) a2 a2
    Hw.extr a2 0
  else none

/-- `reduce_add`. Models /repo/simdpp/core/f_reduce_add.h:28-38 and, for several registers, /repo/simdpp/detail/insn/f_reduce_add.h:80-87. -/
def z_reduce_add (c : Cfg) (a : Vec 32 N) : Option (BitVec 32) := fredAll c (fun _ => z_fadd c) (zradd32 c) (fun _ => none) a

/-- `reduce_mul`. Models /repo/simdpp/core/f_reduce_mul.h and, for several registers, /repo/simdpp/detail/insn/f_reduce_mul.h:73-80. -/
def z_reduce_mul (c : Cfg) (a : Vec 32 N) : Option (BitVec 32) := fredAll c (fun _ => z_fmul c) (zrmul32 c) (fun _ => none) a

/-- `reduce_min`, `reduce_max`. Models /repo/simdpp/core/f_reduce_min.h, f_reduce_max.h and, for several registers,
/repo/simdpp/detail/insn/f_reduce_min.h:74-81, f_reduce_max.h:75-82. -/
def z_reduce_mm (c : Cfg) (isMax : Bool) (a : Vec 32 N) : Option (BitVec 32) :=
  fredAll c (fun _ => if isMax then z_fmax c else z_fmin c) (zrmm32 c isMax) (fun _ => none) a

end Simdpp
