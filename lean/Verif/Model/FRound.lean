import Verif.Model.FConv

/-!
# `floor`, `ceil`, `trunc`

`simdpp/detail/insn/f_floor.h`, `f_ceil.h`, `f_trunc.h`. Simplified: the C library functions and the instructions deliver the
rounded number with the sign of the argument when it is zero (IEEE 754 roundToIntegral); NaN payloads are not modelled.
-/

namespace Simdpp.Spec.Fp
open Flt
variable {w : Nat}

/-- The integer nearest to a finite number, ties to even. -/
def nearInt (x : BitVec w) : Int := if x.msb then -(rne (numMag w (mag x)) (unit w) : Int) else rne (numMag w (mag x)) (unit w)

/-- `r` is `x` rounded to the integer `f x`: the same number as `f x` when `x` is finite; infinities stay, NaN stays NaN. -/
def IsRnd (f : BitVec w → Int) (x r : BitVec w) : Prop :=
  (isFinite x = true → isFinite r = true ∧ num r = f x * 2 ^ unit w) ∧ (isInf x = true → r = x) ∧ (isNaN x = true → isNaN r = true)

end Simdpp.Spec.Fp

namespace Simdpp
open Spec

variable {w n : Nat}

/-- Rounding to an integer in the floating-point format (`std::floor`, `_mm_floor_ps`, `vrndmq_f32`, `vec_floor`, ...). -/
def Hw.rint (f : BitVec w → Int) (x : BitVec w) : BitVec w :=
  if Flt.isNaN x then Fp.nan w
  else if Fp.isInf x then x
  else if f x = 0 then Fp.mk w x.msb 0
  else Fp.ofInt w (f x)

/-! ## `float` -/

/-- Emulation of `floor` by truncation. Models /repo/simdpp/detail/insn/f_floor.h:48-63. -/
def floor32emu (c : Cfg) (a : Vec 32 n) : Option (Vec 32 n) := do
  let ba ← i_fabs c .r128 a
  let mr ← f_cmp_le c .r128 ba (Vec.splat 0x4afffffe#32)
  let mn ← f_cmp_gt c .r128 ba (Vec.splat 0)
  let mask ← i_bit_and_mm c .flt .r128 mr mn
  let s ← i_shift_r c false .r128 a 31
  let at' ← i_isub c .r128 a s
  let ia ← f32i32 c true .r128 at'
  let ia ← i_isub c .r128 ia s
  let fa ← i32f32 c true .r128 ia
  i_blend_vm c .flt .r128 fa a mask

/-- Emulation of `ceil` by truncation. Models /repo/simdpp/detail/insn/f_ceil.h:50-65. -/
def ceil32emu (c : Cfg) (a : Vec 32 n) : Option (Vec 32 n) := do
  let ba ← i_fabs c .r128 a
  let mr ← f_cmp_le c .r128 ba (Vec.splat 0x4afffffe#32)
  let mn ← f_cmp_gt c .r128 ba (Vec.splat 0)
  let mask ← i_bit_and_mm c .flt .r128 mr mn
  let s ← i_shift_r c false .r128 a 31
  let s ← i_bit_xor c .int .r128 s (Vec.splat 1)
  let at' ← i_isub c .r128 a s
  let ia ← f32i32 c true .r128 at'
  let ia ← i_iadd c .r128 ia s
  let fa ← i32f32 c true .r128 ia
  i_blend_vm c .flt .r128 fa a mask

/-- Emulation of `trunc` by the conversion to integers. Models /repo/simdpp/detail/insn/f_trunc.h:49-62. -/
def trunc32emu (c : Cfg) (a : Vec 32 n) : Option (Vec 32 n) := do
  let af ← i_fabs c .r128 a
  let mr ← f_cmp_lt c .r128 af (Vec.splat 0x4b000000#32)
  let mn ← f_cmp_gt c .r128 af (Vec.splat 0)
  let mask ← i_bit_and_mm c .flt .r128 mr mn
  let ia ← f32i32 c true .r128 a
  let fa ← i32f32 c true .r128 ia
  i_blend_vm c .flt .r128 fa a mask

/-- The cascade shared by `i_floor`, `i_ceil` and `i_trunc` on `float` registers.
Models /repo/simdpp/detail/insn/f_floor.h:34-82, f_ceil.h:35-84, f_trunc.h:35-81. -/
def round32 (f : BitVec 32 → Int) (emu : Cfg → Vec 32 n → Option (Vec 32 n)) (c : Cfg) (r : Reg) (a : Vec 32 n) : Option (Vec 32 n) :=
  match r with
  | .r128 =>
    if c.null ∨ c.neonNoFltSp then some (a.map (Hw.rint f))
    else if c.sse41 then some (a.map (Hw.rint f))
    else if c.neon64 then some (a.map (Hw.rint f))
    else if c.sse2 ∨ c.neonFltSp ∨ c.msa then emu c a
    else if c.altivec then some (a.map (Hw.rint f))
    else none
  | .r256 => if c.avx then some (a.map (Hw.rint f)) else none
  | .r512 => if c.avx512f then some (a.map (Hw.rint f)) else none

def i_floor32 (c : Cfg) (r : Reg) (a : Vec 32 n) : Option (Vec 32 n) := round32 Fp.floorInt floor32emu c r a
def i_ceil32 (c : Cfg) (r : Reg) (a : Vec 32 n) : Option (Vec 32 n) := round32 Fp.ceilInt ceil32emu c r a
def i_trunc32 (c : Cfg) (r : Reg) (a : Vec 32 n) : Option (Vec 32 n) := round32 Fp.truncInt trunc32emu c r a

/-! ## `double` -/

/-- The bits below the binary point: the exponent of `af` with an empty fraction, plus 1.0, minus the integer 1, without the bits of `m`.
Models /repo/simdpp/detail/insn/f_floor.h:104-107, f_ceil.h:107-110, f_trunc.h:104-107. -/
def clearbits (c : Cfg) (m : BitVec 64) (af : Vec 64 n) : Option (Vec 64 n) := do
  let e ← i_bit_and c .flt .r128 af (Vec.splat 0x7ff0000000000000#64)
  let p ← i_fadd c .r128 e (Vec.splat 0x3ff0000000000000#64)
  let d ← i_isub c .r128 p (Vec.splat 1)
  i_bit_andnot c .flt .r128 d (Vec.splat m)

/-- Models /repo/simdpp/detail/insn/f_trunc.h:91-111. -/
def trunc64emu (c : Cfg) (a : Vec 64 n) : Option (Vec 64 n) := do
  let af ← i_fabs c .r128 a
  let mr ← f_cmp_le c .r128 af (Vec.splat 0x432ffffffffffffe#64)
  let mz ← f_cmp_lt c .r128 af (Vec.splat 0x3ff0000000000000#64)
  let cb ← clearbits c 0x7ff0000000000000#64 af
  let a2 ← i_bit_andnot c .flt .r128 a cb
  let a2 ← i_bit_andnot c .flt .r128 a2 mz.unmask
  i_blend_vm c .flt .r128 a2 a mr

/-- Models /repo/simdpp/detail/insn/f_floor.h:91-125 (the truncated number of line 109 is overwritten on line 122). -/
def floor64emu (c : Cfg) (a : Vec 64 n) : Option (Vec 64 n) := do
  let af ← i_fabs c .r128 a
  let mr ← f_cmp_le c .r128 af (Vec.splat 0x432ffffffffffffe#64)
  let m1 ← f_cmp_lt c .r128 af (Vec.splat 0x3ff0000000000000#64)
  let cb ← clearbits c 0xfff0000000000000#64 af
  let _ ← i_bit_andnot c .flt .r128 a cb
  let mneg ← f_cmp_lt c .r128 a (Vec.splat 0)
  let low ← i_bit_and c .flt .r128 a cb
  let ms ← f_cmp_gt c .r128 low (Vec.splat 0)
  let ms ← i_bit_and_mm c .flt .r128 ms mneg
  let m2 ← i_bit_and_mm c .flt .r128 m1 mneg
  let ms ← i_bit_or_mm c .flt .r128 ms m2
  let sub1 ← i_bit_and_vm c .flt .r128 (Vec.splat 0xbff0000000000000#64) ms
  let a2 ← i_bit_andnot_vm c .flt .r128 a m1
  let a2 ← i_fsub c .r128 a2 sub1
  i_blend_vm c .flt .r128 a2 a mr

/-- Models /repo/simdpp/detail/insn/f_ceil.h:94-128 (the truncated number of line 112 is overwritten on line 125). -/
def ceil64emu (c : Cfg) (a : Vec 64 n) : Option (Vec 64 n) := do
  let af ← i_fabs c .r128 a
  let mr ← f_cmp_le c .r128 af (Vec.splat 0x432ffffffffffffe#64)
  let m1 ← f_cmp_lt c .r128 af (Vec.splat 0x3ff0000000000000#64)
  let cb ← clearbits c 0xfff0000000000000#64 af
  let _ ← i_bit_andnot c .flt .r128 a cb
  let mpos ← f_cmp_gt c .r128 a (Vec.splat 0)
  let low ← i_bit_and c .flt .r128 a cb
  let ms ← f_cmp_gt c .r128 low (Vec.splat 0)
  let ms ← i_bit_and_mm c .flt .r128 ms mpos
  let m2 ← i_bit_and_mm c .flt .r128 m1 mpos
  let ms ← i_bit_or_mm c .flt .r128 ms m2
  let add1 ← i_bit_and_vm c .flt .r128 (Vec.splat 0x3ff0000000000000#64) ms
  let a2 ← i_bit_andnot_vm c .flt .r128 a m1
  let a2 ← i_fadd c .r128 a2 add1
  i_blend_vm c .flt .r128 a2 a mr

/-- The cascade shared by `i_floor`, `i_ceil` and `i_trunc` on `double` registers; `g` is what the NEON64 instruction rounds to.
Models /repo/simdpp/detail/insn/f_floor.h:86-153, f_ceil.h:88-155, f_trunc.h:85-152. -/
def round64 (f g : BitVec 64 → Int) (emu : Cfg → Vec 64 n → Option (Vec 64 n)) (c : Cfg) (r : Reg) (a : Vec 64 n) : Option (Vec 64 n) :=
  match r with
  | .r128 =>
    if c.sse41 then some (a.map (Hw.rint f))
    else if c.sse2 ∨ c.msa then emu c a
    else if c.neon64 then some (a.map (Hw.rint g))
    else if c.vsx206 then some (a.map (Hw.rint f))
    else if c.null ∨ c.neon32 ∨ c.altivec then some (a.map (Hw.rint f))
    else none
  | .r256 => if c.avx then some (a.map (Hw.rint f)) else none
  | .r512 => if c.avx512f then some (a.map (Hw.rint f)) else none

/-- On NEON64 the instruction is `vrndnq_f64`, which rounds to nearest (f_floor.h:127). -/
def i_floor64 (c : Cfg) (r : Reg) (a : Vec 64 n) : Option (Vec 64 n) := round64 Fp.floorInt Fp.nearInt floor64emu c r a
def i_ceil64 (c : Cfg) (r : Reg) (a : Vec 64 n) : Option (Vec 64 n) := round64 Fp.ceilInt Fp.ceilInt ceil64emu c r a
def i_trunc64 (c : Cfg) (r : Reg) (a : Vec 64 n) : Option (Vec 64 n) := round64 Fp.truncInt Fp.truncInt trunc64emu c r a

end Simdpp
