import Verif.Model.Ftz
import Verif.Model.FDiv

/-!
# 32-bit NEON: division and square root that flush to zero

The NEON branches of `div`, `sqrt`, `rcp_rh`, `rsqrt_rh` of `float32` vectors with the arithmetic of `Spec/Ftz.lean`. As in `Model/FDiv.lean`
the estimate instructions are the parameter `E`. Simplified: `none` on other builds (`Model/FDiv.lean` covers them); one register (longer
vectors are processed register by register).
-/

namespace Simdpp
open Spec

variable {n : Nat}

/-- `vrecpsq_f32` on AArch32: `2 - x * y` (ARM DDI 0406 FPRecipStep); subnormal operands count as zeros in the rule for infinity times zero. -/
def Hw.zrecps (x y : BitVec 32) : BitVec 32 :=
  if Hw.infZero (Ftz.flush x) (Ftz.flush y) then f32_2 else Ftz.sub f32_2 (Ftz.mul x y)

/-- `vrsqrtsq_f32` on AArch32: `(3 - x * y) / 2` (FPRSqrtStep). -/
def Hw.zrsqrts (x y : BitVec 32) : BitVec 32 :=
  if Hw.infZero (Ftz.flush x) (Ftz.flush y) then f32_1h else Ftz.flush (Fp.div (Ftz.sub f32_3 (Ftz.mul x y)) f32_2)

/-- `mul(x, vrecpsq_f32(a, x))`. Models /repo/simdpp/detail/insn/f_rcp_rh.h:51-56, NEON branch. -/
def z_rcp_rh (c : Cfg) (x a : Vec 32 n) : Option (Vec 32 n) :=
  if c.neonZ then z_fmul c x (fun i => Hw.zrecps (a i) (x i)) else none

/-- `x2 = mul(x, x); r = vrsqrtsq_f32(a, x2); mul(x, r)`. Models /repo/simdpp/detail/insn/f_rsqrt_rh.h:56-63, NEON branch. -/
def z_rsqrt_rh (c : Cfg) (x a : Vec 32 n) : Option (Vec 32 n) := do
  if c.neonZ then
    let x2 ← z_fmul c x x
    z_fmul c x (fun i => Hw.zrsqrts (a i) (x2 i))
  else none

/-- `x = rcp_e(b); x = rcp_rh(x, b); x = rcp_rh(x, b); mul(a, x)`. Models /repo/simdpp/detail/insn/f_div.h:39-44, NEON branch. -/
def z_div (c : Cfg) (E : Est) (a b : Vec 32 n) : Option (Vec 32 n) := do
  if c.neonZ then
    let x ← z_rcp_rh c (fun i => E.rcp (b i)) b
    let x ← z_rcp_rh c x b
    z_fmul c a x
  else none

/-- `x = rsqrt_e(a); x = rsqrt_rh(x, a); mul(a, x)`. Models /repo/simdpp/detail/insn/f_sqrt.h:41-45, NEON branch. -/
def z_sqrt (c : Cfg) (E : Est) (a : Vec 32 n) : Option (Vec 32 n) := do
  if c.neonZ then
    let x ← z_rsqrt_rh c (fun i => E.rsqrt (a i)) a
    z_fmul c a x
  else none

end Simdpp
