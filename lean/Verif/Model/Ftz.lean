import Verif.Model.FProg
import Verif.Model.FRound
import Verif.Spec.Ftz

/-!
# 32-bit NEON: `float32` arithmetic that flushes to zero

The NEON branches of the `float32<4>` functions, with the instructions as the 32-bit unit executes them whatever the program asks for
(`Spec/Ftz.lean`). The other modules model these branches with IEEE arithmetic. `eqz` says that the compiler emits the vector instruction for
`vceqq_f32`; GCC 11 and later may break a comparison intrinsic into scalar code, which keeps subnormal numbers; for `<`, `<=`, `>`, `>=` the
library writes the instruction itself there. Simplified: the functions are `none` on other builds (the rest of the model covers them).
-/

namespace Simdpp
open Spec Spec.FProg

variable {n : Nat}

/-- 32-bit NEON with `SIMDPP_USE_NEON_FLT_SP`. -/
def Cfg.neonZ (c : Cfg) : Bool := c.neon32 && c.neonFltSp

/-- `vaddq_f32`. Models /repo/simdpp/detail/insn/f_add.h:31-32. -/
def z_fadd (c : Cfg) (a b : Vec 32 n) : Option (Vec 32 n) := if c.neonZ then some (a.map2 Ftz.add b) else none

/-- `vsubq_f32`. Models /repo/simdpp/detail/insn/f_sub.h:31-32. -/
def z_fsub (c : Cfg) (a b : Vec 32 n) : Option (Vec 32 n) := if c.neonZ then some (a.map2 Ftz.sub b) else none

/-- `vmulq_f32`. Models /repo/simdpp/detail/insn/f_mul.h:33-34. -/
def z_fmul (c : Cfg) (a b : Vec 32 n) : Option (Vec 32 n) := if c.neonZ then some (a.map2 Ftz.mul b) else none

/-- `vminq_f32`. Models /repo/simdpp/detail/insn/f_min.h:32-33. -/
def z_fmin (c : Cfg) (a b : Vec 32 n) : Option (Vec 32 n) := if c.neonZ then some (a.map2 (fun x y => Hw.minN (Ftz.flush x) (Ftz.flush y)) b) else none

/-- `vmaxq_f32`. Models /repo/simdpp/detail/insn/f_max.h:32-33. -/
def z_fmax (c : Cfg) (a b : Vec 32 n) : Option (Vec 32 n) := if c.neonZ then some (a.map2 (fun x y => Hw.maxN (Ftz.flush x) (Ftz.flush y)) b) else none

/-- `vceqq_f32`, or scalar code. Models /repo/simdpp/detail/insn/cmp_eq.h:284-285. -/
def z_cmp_eq (c : Cfg) (eqz : Bool) (a b : Vec 32 n) : Option (Mask 32 n) :=
  if c.neonZ then
    retV c .flt .r128 (Hw.sel (if eqz then Hw.feqP (a.map Ftz.flush) (b.map Ftz.flush) else Hw.feqP a b))
  else none

/-- `vcgt.f32` with the operands swapped, `vcltq_f32`. Models /repo/simdpp/detail/insn/cmp_lt.h:392-404. -/
def z_cmp_lt (c : Cfg) (a b : Vec 32 n) : Option (Mask 32 n) :=
  if c.neonZ then retV c .flt .r128 (Hw.sel (Hw.fgtP (b.map Ftz.flush) (a.map Ftz.flush))) else none

/-- `vcgt.f32`. Models /repo/simdpp/detail/insn/cmp_gt.h:396-408. -/
def z_cmp_gt (c : Cfg) (a b : Vec 32 n) : Option (Mask 32 n) :=
  if c.neonZ then retV c .flt .r128 (Hw.sel (Hw.fgtP (a.map Ftz.flush) (b.map Ftz.flush))) else none

/-- `vcge.f32` with the operands swapped. Models /repo/simdpp/detail/insn/cmp_le.h:332-344. -/
def z_cmp_le (c : Cfg) (a b : Vec 32 n) : Option (Mask 32 n) :=
  if c.neonZ then retV c .flt .r128 (Hw.sel (Hw.fgeP (b.map Ftz.flush) (a.map Ftz.flush))) else none

/-- `vcge.f32`. Models /repo/simdpp/detail/insn/cmp_ge.h:333-345. -/
def z_cmp_ge (c : Cfg) (a b : Vec 32 n) : Option (Mask 32 n) :=
  if c.neonZ then retV c .flt .r128 (Hw.sel (Hw.fgeP (a.map Ftz.flush) (b.map Ftz.flush))) else none

/-- `bit_not(cmp_eq(a, b))`. Models /repo/simdpp/detail/insn/cmp_neq.h:257-258. -/
def z_cmp_neq (c : Cfg) (eqz : Bool) (a b : Vec 32 n) : Option (Mask 32 n) := do i_bit_not_m c .flt .r128 (← z_cmp_eq c eqz a b)

/-- The comparison functions. Models /repo/simdpp/core/cmp_*.h. -/
def z_cmp (c : Cfg) (eqz : Bool) (R : Rel) (a b : Vec 32 n) : Option (Mask 32 n) :=
  match R with
  | .eq => z_cmp_eq c eqz a b
  | .ne => z_cmp_neq c eqz a b
  | .lt => z_cmp_lt c a b
  | .le => z_cmp_le c a b
  | .gt => z_cmp_gt c a b
  | .ge => z_cmp_ge c a b

/-- `cmp_neq(a, a)`. Models /repo/simdpp/detail/insn/f_isnan.h:36-37. -/
def z_isnan (c : Cfg) (eqz : Bool) (a : Vec 32 n) : Option (Mask 32 n) := z_cmp_neq c eqz a a

/-- `(a - a) == 0`. Models /repo/simdpp/core/f_isfinite.h:30-38. -/
def z_isfinite (c : Cfg) (eqz : Bool) (a : Vec 32 n) : Option (Mask 32 n) := do z_cmp_eq c eqz (← z_fsub c a a) (Vec.splat 0)

/-- One register of a unary operation: bit operations only. Models /repo/simdpp/core/f_neg.h, f_abs.h, bit_not.h. -/
def z_op1 (c : Cfg) (o : FOp1) (a : Vec 32 n) : Option (Vec 32 n) :=
  match o with
  | .neg => i_fneg c .r128 a
  | .abs => i_fabs c .r128 a
  | .not => i_bit_not c .flt .r128 a
  | .sqrt => none

/-- One register of a binary operation. Models /repo/simdpp/core/f_add.h, f_sub.h, f_mul.h, f_min.h, f_max.h, f_copysign.h, bit_and.h,
bit_or.h, bit_xor.h, bit_andnot.h and /repo/simdpp/operators/*.h. -/
def z_op2 (c : Cfg) (o : FOp2) (a b : Vec 32 n) : Option (Vec 32 n) :=
  match o with
  | .add => z_fadd c a b
  | .sub => z_fsub c a b
  | .mul => z_fmul c a b
  | .min => z_fmin c a b
  | .max => z_fmax c a b
  | .copysign => Simdpp.copysign c .r128 a b
  | .and => i_bit_and c .flt .r128 a b
  | .or => i_bit_or c .flt .r128 a b
  | .xor => i_bit_xor c .flt .r128 a b
  | .andnot => i_bit_andnot c .flt .r128 a b
  | .div => none

variable {K L : Nat}

/-- Evaluate an expression on `K` registers, as `FExp.run` with these functions. Models /repo/simdpp/detail/vector_array_macros.h around each
operator. -/
def runZ (c : Cfg) (eqz : Bool) (jv : Fin K → Vec 32 L) (jm : Fin K → Mask 32 L) (env : Nat → Fin K → Vec 32 L) :
    {t : FTy} → FExp 32 t → Option (FVal 32 L K t)
  | _, .var x => some (env x)
  | _, .lit v => Arr.apply1 (fun k : Nat => i_make_const_flt (M := 1) c .r128 id (fun _ => v) (0 + L * k)) (fun k => k.val) 0 jv
  | _, .op1 o a => do Arr.apply1 (z_op1 c o) (← runZ c eqz jv jm env a) 0 jv
  | _, .op2 o a b => do Arr.apply2 (z_op2 c o) (← runZ c eqz jv jm env a) (← runZ c eqz jv jm env b) 0 jv
  | _, .fmadd _ _ _ => none
  | _, .fmsub _ _ _ => none
  | _, .cmp R a b => do Arr.apply2 (z_cmp c eqz R) (← runZ c eqz jv jm env a) (← runZ c eqz jv jm env b) 0 jm
  | _, .isnan a => do Arr.apply1 (z_isnan c eqz) (← runZ c eqz jv jm env a) 0 jm
  | _, .isfinite a => do Arr.apply1 (z_isfinite c eqz) (← runZ c eqz jv jm env a) 0 jm
  | _, .opm o a b => do Arr.apply2 (o.run c .r128) (← runZ c eqz jv jm env a) (← runZ c eqz jv jm env b) 0 jm
  | _, .notm a => do Arr.apply1 (i_bit_not_m c .flt .r128) (← runZ c eqz jv jm env a) 0 jm
  | _, .andm a m => do Arr.apply2 (i_bit_and_vm c .flt .r128) (← runZ c eqz jv jm env a) (← runZ c eqz jv jm env m) 0 jv
  | _, .andnotm a m => do Arr.apply2 (i_bit_andnot_vm c .flt .r128) (← runZ c eqz jv jm env a) (← runZ c eqz jv jm env m) 0 jv
  | _, .blend a b m => do
    Arr.apply3 (i_blend_vm c .flt .r128) (← runZ c eqz jv jm env a) (← runZ c eqz jv jm env b) (← runZ c eqz jv jm env m) 0 jv

/-- Evaluate a vector expression on `float32<N>` (registers `float32<4>`, /repo/simdpp/types/fwd.h). -/
def evalZ {N : Nat} (c : Cfg) (eqz : Bool) (jv : Nat → Vec 32 4) (jm : Nat → Mask 32 4) (e : FExp 32 .vec) (env : Nat → Vec 32 N) : Option (Vec 32 N) :=
  match runZ c eqz (K := N / 4) (fun k => jv k.val) (fun k => jm k.val) (fun x k => Hw.part 4 k.val (env x)) e with
  | none => none
  | some v => catM 4 fun k => if h : k < N / 4 then some (v ⟨k, h⟩) else none

/-! ## Rounding -/

/-- `floor`. `vcvtq_s32_f32` takes a subnormal number to 0 in either arithmetic. Models /repo/simdpp/detail/insn/f_floor.h:47-63. -/
def z_floor (c : Cfg) (a : Vec 32 n) : Option (Vec 32 n) := do
  let ba ← i_fabs c .r128 a
  let mr ← z_cmp_le c ba (Vec.splat 0x4afffffe#32)
  let mn ← z_cmp_gt c ba (Vec.splat 0)
  let mask ← i_bit_and_mm c .flt .r128 mr mn
  let s ← i_shift_r c false .r128 a 31
  let at' ← i_isub c .r128 a s
  let ia ← f32i32 c true .r128 at'
  let ia ← i_isub c .r128 ia s
  let fa ← i32f32 c true .r128 ia
  i_blend_vm c .flt .r128 fa a mask

/-- `ceil`. Models /repo/simdpp/detail/insn/f_ceil.h:49-65. -/
def z_ceil (c : Cfg) (a : Vec 32 n) : Option (Vec 32 n) := do
  let ba ← i_fabs c .r128 a
  let mr ← z_cmp_le c ba (Vec.splat 0x4afffffe#32)
  let mn ← z_cmp_gt c ba (Vec.splat 0)
  let mask ← i_bit_and_mm c .flt .r128 mr mn
  let s ← i_shift_r c false .r128 a 31
  let s ← i_bit_xor c .int .r128 s (Vec.splat 1)
  let at' ← i_isub c .r128 a s
  let ia ← f32i32 c true .r128 at'
  let ia ← i_iadd c .r128 ia s
  let fa ← i32f32 c true .r128 ia
  i_blend_vm c .flt .r128 fa a mask

/-- `trunc`. Models /repo/simdpp/detail/insn/f_trunc.h:48-62. -/
def z_trunc (c : Cfg) (a : Vec 32 n) : Option (Vec 32 n) := do
  let af ← i_fabs c .r128 a
  let mr ← z_cmp_lt c af (Vec.splat 0x4b000000#32)
  let mn ← z_cmp_gt c af (Vec.splat 0)
  let mask ← i_bit_and_mm c .flt .r128 mr mn
  let ia ← f32i32 c true .r128 a
  let fa ← i32f32 c true .r128 ia
  i_blend_vm c .flt .r128 fa a mask

end Simdpp
