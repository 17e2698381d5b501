import Verif.Model.FConv
import Verif.Model.FMul
import Verif.Model.FltOps

/-!
# `log2_approx`

`simdpp/math/log2_approx.h`. The function is written in terms of lane-wise operations on vectors of `N` lanes; a vector longer than a
register is an array of registers to which each of them is applied (C25). `rf` is the register type of the floating-point vectors, `ri` that
of the integer vectors, which is narrower on AVX without AVX2.
-/

namespace Simdpp
variable {N : Nat}

/-- The coefficients `-0.34484362f`, `2.02466192f`, `0.67487591f`. -/
abbrev log2_c2 : BitVec 32 := 0xbeb08f58#32
abbrev log2_c1 : BitVec 32 := 0x40019410#32
abbrev log2_c0 : BitVec 32 := 0x3f2cc4ab#32

/-- `log2_approx_positive_finite`. Models /repo/simdpp/math/log2_approx.h:22-45; `to_float32` is that of signed 32-bit lanes. -/
def log2_approx_positive_finite (c : Cfg) (a : Vec 32 N) : Option (Vec 32 N) := do
  let rf := c.regF 32 N
  let ri := c.regOf 32 N
  let e ← shift_r_imm c false ri 23 a
  let e ← i_bit_and c .int ri e (Vec.splat 0xff#32)
  let e ← i_isub c ri e (Vec.splat 128#32)
  let res ← i_i32f32 c true e
  let m ← i_bit_select c .int ri (Vec.splat 0x3f800000#32) a (Vec.splat 0x7f800000#32)
  let t ← i_fmul c rf (Vec.splat log2_c2) m
  let t ← i_fadd c rf t (Vec.splat log2_c1)
  let t ← i_fmul c rf t m
  let t ← i_fsub c rf t (Vec.splat log2_c0)
  i_fadd c rf res t

/-- `log2_approx`. Models /repo/simdpp/math/log2_approx.h:52-88; the lines 68-78 are those of `log2_approx_positive_finite`. -/
def log2_approx (c : Cfg) (a : Vec 32 N) : Option (Vec 32 N) := do
  let rf := c.regF 32 N
  let nan_mask ← f_cmp_lt c rf a (Vec.splat 0#32)
  let zero_mask ← f_cmp_eq c rf a (Vec.splat 0#32)
  let finite_mask ← isfinite c rf a
  let res ← log2_approx_positive_finite c a
  let res ← i_blend_vm c .flt rf res a finite_mask
  let res ← i_blend_vm c .flt rf (Vec.splat 0xff800000#32) res zero_mask
  i_bit_or c .flt rf res nan_mask.unmask

end Simdpp
