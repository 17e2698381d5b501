import Verif.Model.FltOps
import Verif.Spec.FpMul

/-!
# `mul`, `fmadd`, `fmsub` on floating-point vectors

`simdpp/detail/insn/f_mul.h`, `f_fmadd.h`, `f_fmsub.h`. The operands of the three-operand functions are named `x y z` (`a b c` in
the source). Simplified: flush-to-zero modes of NEON and AltiVec are not modelled.
-/

namespace Simdpp
open Spec

variable {w n : Nat}

/-- `i_fmul`; AltiVec has only the fused multiply-add, with which the product is added to `+0`.
Models /repo/simdpp/detail/insn/f_mul.h:25-101 and /repo/simdpp/detail/null/math.h:139-147. -/
def i_fmul (c : Cfg) (r : Reg) (a b : Vec w n) : Option (Vec w n) :=
  match r with
  | .r128 =>
    if w = 32 then
      if c.null ∨ c.neonNoFltSp then some (a.map2 Fp.mul b)
      else if c.sse2 then some (a.map2 Fp.mul b)
      else if c.neonFltSp then some (a.map2 Fp.mul b)
      else if c.vsx206 then some (a.map2 Fp.mul b)
      else if c.altivec then some (fun i => Fp.fma (a i) (b i) 0)
      else if c.msa then some (a.map2 Fp.mul b)
      else none
    else
      if c.sse2 then some (a.map2 Fp.mul b)
      else if c.neon64 then some (a.map2 Fp.mul b)
      else if c.vsx206 then some (a.map2 Fp.mul b)
      else if c.msa then some (a.map2 Fp.mul b)
      else if c.null ∨ c.neon32 ∨ c.altivec then some (a.map2 Fp.mul b)
      else none
  | .r256 => if c.avx then some (a.map2 Fp.mul b) else none
  | .r512 => if c.avx512f then some (a.map2 Fp.mul b) else none

/-- `vfmaq_f32/f64(p, q, s)` is `p + q * s`; `_mm_fmadd_ps(p, q, s)`, `_mm_macc_ps` and `std::fma` are `p * q + s`;
`__msa_fmadd_w(p, q, s)` is `p + q * s`.
Models /repo/simdpp/detail/insn/f_fmadd.h:24-119 and /repo/simdpp/detail/null/math.h:149-157. -/
def i_fmadd (c : Cfg) (r : Reg) (x y z : Vec w n) : Option (Vec w n) :=
  match r with
  | .r128 =>
    if c.null then some (Vec.map3 Fp.fma x y z)
    else if c.fma3 then some (Vec.map3 Fp.fma x y z)
    else if c.fma4 then some (Vec.map3 Fp.fma x y z)
    else if c.neon64 then some (Vec.map3 (fun p q s => Fp.fma q s p) x y z)
    else if c.msa then some (Vec.map3 (fun p q s => Fp.fma q s p) z x y)
    else none
  | .r256 =>
    if c.avx then
      if c.fma3 then some (Vec.map3 Fp.fma x y z)
      else if c.fma4 then some (Vec.map3 Fp.fma x y z)
      else none
    else none
  | .r512 => if c.avx512f then some (Vec.map3 Fp.fma x y z) else none

/-- `vfmsq_f32/f64(p, q, s)` and `__msa_fmsub_w(p, q, s)` are `p - q * s`; `_mm_fmsub_ps(p, q, s)`, `_mm_msub_ps` are `p * q - s`.
Models /repo/simdpp/detail/insn/f_fmsub.h:24-119 and /repo/simdpp/detail/null/math.h:159-167. -/
def i_fmsub (c : Cfg) (r : Reg) (x y z : Vec w n) : Option (Vec w n) :=
  match r with
  | .r128 =>
    if c.null then some (Vec.map3 (fun p q s => Fp.fma p q (Hw.fneg s)) x y z)
    else if c.fma3 then some (Vec.map3 (fun p q s => Fp.fma p q (Fp.neg s)) x y z)
    else if c.fma4 then some (Vec.map3 (fun p q s => Fp.fma p q (Fp.neg s)) x y z)
    else if c.neon64 then some (Vec.map3 (fun p q s => Fp.fma (Fp.neg q) s p) x y z)
    else if c.msa then some (Vec.map3 (fun p q s => Fp.fma (Fp.neg q) s p) z x y)
    else none
  | .r256 =>
    if c.avx then
      if c.fma3 then some (Vec.map3 (fun p q s => Fp.fma p q (Fp.neg s)) x y z)
      else if c.fma4 then some (Vec.map3 (fun p q s => Fp.fma p q (Fp.neg s)) x y z)
      else none
    else none
  | .r512 => if c.avx512f then some (Vec.map3 (fun p q s => Fp.fma p q (Fp.neg s)) x y z) else none

end Simdpp
