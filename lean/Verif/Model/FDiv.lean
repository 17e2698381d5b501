import Verif.Model.FMul
import Verif.Spec.FpDiv

/-!
# `div`, `sqrt`, `rcp_e`, `rcp_rh`, `rsqrt_e`, `rsqrt_rh` on floating-point vectors

`simdpp/detail/insn/f_div.h`, `f_sqrt.h`, `f_rcp_e.h`, `f_rcp_rh.h`, `f_rsqrt_e.h`, `f_rsqrt_rh.h`. The reciprocal estimates of the
processors (`_mm_rcp_ps`, `vrecpeq_f32`, `vec_re`, `__msa_frcp_w`, ...) are the parameter `E`, of which the theorems only assume the
documented accuracy. Simplified: flush-to-zero modes of NEON (see `Model/FtzDiv.lean`) and AltiVec are not modelled here.
-/

namespace Simdpp
open Spec

variable {w n : Nat}

/-- The estimates of the processor: of `1 / x` and of `1 / sqrt(x)`. -/
structure Est where
  rcp : BitVec 32 → BitVec 32
  rsqrt : BitVec 32 → BitVec 32

/-- `1.0f`, `2.0f`, `3.0f`, `0.5f`, `1.5f`. -/
abbrev f32_1 : BitVec 32 := 0x3f800000#32
abbrev f32_2 : BitVec 32 := 0x40000000#32
abbrev f32_3 : BitVec 32 := 0x40400000#32
abbrev f32_half : BitVec 32 := 0x3f000000#32
abbrev f32_1h : BitVec 32 := 0x3fc00000#32

/-- The product of an infinity and a zero, for which the ARM step instructions have a rule of their own. -/
def Hw.infZero (x y : BitVec 32) : Bool :=
  (Fp.isInf x && decide (Fp.num y = 0)) || (decide (Fp.num x = 0) && Fp.isInf y)

/-- `vrecpsq_f32`: `2 - x * y`. AArch32 rounds the product (ARM DDI 0406 FPRecipStep), AArch64 does not (DDI 0487
FPRecipStepFused). -/
def Hw.vrecps (fused : Bool) (x y : BitVec 32) : BitVec 32 :=
  if Hw.infZero x y then f32_2
  else if fused then Fp.fma (Fp.neg x) y f32_2
  else Fp.sub f32_2 (Fp.mul x y)

/-- `(3 - x * y) / 2` with one rounding. -/
def Hw.rsqrtsFused (x y : BitVec 32) : BitVec 32 :=
  if Flt.isNaN x || Flt.isNaN y then Fp.nan 32
  else if Fp.isInf x || Fp.isInf y then Fp.mk 32 (!(x.msb != y.msb)) (Flt.infBits 32)
  else Fp.round 32 (Fp.unit 32 + 1) (Fp.num f32_3 * 2 ^ Fp.unit 32 - Fp.num x * Fp.num y)

/-- `vrsqrtsq_f32`: `(3 - x * y) / 2`. AArch32 rounds each step (FPRSqrtStep), AArch64 once (FPRSqrtStepFused). -/
def Hw.vrsqrts (fused : Bool) (x y : BitVec 32) : BitVec 32 :=
  if Hw.infZero x y then f32_1h
  else if fused then Hw.rsqrtsFused x y
  else Fp.div (Fp.sub f32_3 (Fp.mul x y)) f32_2

/-- `vec_nmsub(x, y, z)`: `-(x * y - z)`, fused. -/
def Hw.nmsub (x y z : BitVec 32) : BitVec 32 :=
  let t := Fp.fma x y (Fp.neg z)
  if Flt.isNaN t then Fp.nan 32 else Fp.neg t

/-- `i_rcp_e`. Models /repo/simdpp/detail/insn/f_rcp_e.h:28-69. -/
def i_rcp_e (c : Cfg) (E : Est) (r : Reg) (a : Vec 32 n) : Option (Vec 32 n) :=
  match r with
  | .r128 =>
    if c.null ∨ c.neonNoFltSp then some (fun i => Fp.div f32_1 (a i))
    else if c.sse2 then some (fun i => E.rcp (a i))
    else if c.neonFltSp then some (fun i => E.rcp (a i))
    else if c.altivec then some (fun i => E.rcp (a i))
    else if c.msa then some (fun i => E.rcp (a i))
    else none
  | .r256 => if c.avx then some (fun i => E.rcp (a i)) else none
  | .r512 => if c.avx512f then some (fun i => E.rcp (a i)) else none

/-- `r = mul(a, x); r = sub(2.0, r); x = mul(x, r)`. Models /repo/simdpp/detail/insn/f_rcp_rh.h:44-50, 69-78, 83-92. -/
def v_rcp_rh (c : Cfg) (r : Reg) (x a : Vec 32 n) : Option (Vec 32 n) := do
  let t ← i_fmul c r a x
  let t ← i_fsub c r (Vec.splat f32_2) t
  i_fmul c r x t

/-- `i_rcp_rh`. Models /repo/simdpp/detail/insn/f_rcp_rh.h:31-100. -/
def i_rcp_rh (c : Cfg) (r : Reg) (x a : Vec 32 n) : Option (Vec 32 n) :=
  match r with
  | .r128 =>
    if c.null ∨ c.neonNoFltSp then some (fun i => Fp.mul (x i) (Fp.sub f32_2 (Fp.mul (x i) (a i))))
    else if c.sse2 ∨ c.msa then v_rcp_rh c .r128 x a
    else if c.neonFltSp then i_fmul c .r128 x (fun i => Hw.vrecps c.neon64 (a i) (x i))
    else if c.altivec then i_fmul c .r128 x (fun i => Hw.nmsub (x i) (a i) f32_2)
    else none
  | .r256 => if c.avx then v_rcp_rh c .r256 x a else none
  | .r512 => if c.avx512f then v_rcp_rh c .r512 x a else none

/-- `i_div`. Models /repo/simdpp/detail/insn/f_div.h:26-118. -/
def i_div (c : Cfg) (E : Est) (r : Reg) (a b : Vec w n) : Option (Vec w n) :=
  match r with
  | .r128 =>
    if h : w = 32 then
      if c.null ∨ c.neonNoFltSp then some (a.map2 Fp.div b)
      else if c.sse2 then some (a.map2 Fp.div b)
      else if c.neon64 then some (a.map2 Fp.div b)
      else if c.neonFltSp then do
        let x ← i_rcp_e c E .r128 (h ▸ b)
        let x ← i_rcp_rh c .r128 x (h ▸ b)
        let x ← i_rcp_rh c .r128 x (h ▸ b)
        i_fmul c .r128 a (h ▸ x)
      else if c.vsx206 then some (a.map2 Fp.div b)
      else if c.altivec then do
        let x ← i_rcp_e c E .r128 (h ▸ b)
        let x ← i_rcp_rh c .r128 x (h ▸ b)
        let x ← i_rcp_rh c .r128 x (h ▸ b)
        i_fmul c .r128 a (h ▸ x)
      else if c.msa then some (a.map2 Fp.div b)
      else none
    else
      if c.sse2 then some (a.map2 Fp.div b)
      else if c.neon64 then some (a.map2 Fp.div b)
      else if c.vsx206 then some (a.map2 Fp.div b)
      else if c.msa then some (a.map2 Fp.div b)
      else if c.null ∨ c.neon32 ∨ c.altivec then some (a.map2 Fp.div b)
      else none
  | .r256 => if c.avx then some (a.map2 Fp.div b) else none
  | .r512 => if c.avx512f then some (a.map2 Fp.div b) else none

/-- `i_rsqrt_e`. Models /repo/simdpp/detail/insn/f_rsqrt_e.h:28-68. -/
def i_rsqrt_e (c : Cfg) (E : Est) (r : Reg) (a : Vec 32 n) : Option (Vec 32 n) :=
  match r with
  | .r128 =>
    if c.null ∨ c.neonNoFltSp then some (fun i => Fp.div f32_1 (Fp.sqrt (a i)))
    else if c.sse2 then some (fun i => E.rsqrt (a i))
    else if c.neonFltSp then some (fun i => E.rsqrt (a i))
    else if c.altivec then some (fun i => E.rsqrt (a i))
    else if c.msa then some (fun i => E.rsqrt (a i))
    else none
  | .r256 => if c.avx then some (fun i => E.rsqrt (a i)) else none
  | .r512 => if c.avx512f then some (fun i => E.rsqrt (a i)) else none

/-- `v_rsqrt_rh`. Models /repo/simdpp/detail/insn/f_rsqrt_rh.h:27-39. -/
def v_rsqrt_rh (c : Cfg) (r : Reg) (x a : Vec 32 n) : Option (Vec 32 n) := do
  let x2 ← i_fmul c r x x
  let t ← i_fmul c r a x2
  let t ← i_fsub c r (Vec.splat f32_3) t
  let x ← i_fmul c r x (Vec.splat f32_half)
  i_fmul c r x t

/-- `i_rsqrt_rh`. Models /repo/simdpp/detail/insn/f_rsqrt_rh.h:41-100. -/
def i_rsqrt_rh (c : Cfg) (r : Reg) (x a : Vec 32 n) : Option (Vec 32 n) :=
  match r with
  | .r128 =>
    if c.null ∨ c.neonNoFltSp then
      some (fun i => Fp.mul (Fp.mul (x i) (Fp.sub f32_3 (Fp.mul (Fp.mul (a i) (x i)) (x i)))) f32_half)
    else if c.sse2 ∨ c.msa then v_rsqrt_rh c .r128 x a
    else if c.neonFltSp then do
      let x2 ← i_fmul c .r128 x x
      i_fmul c .r128 x (fun i => Hw.vrsqrts c.neon64 (a i) (x2 i))
    else if c.altivec then do
      let x2 ← i_fmul c .r128 x x
      let xp5 ← i_fmul c .r128 x (Vec.splat f32_half)
      i_fmul c .r128 xp5 (fun i => Hw.nmsub (a i) (x2 i) f32_3)
    else none
  | .r256 => if c.avx then v_rsqrt_rh c .r256 x a else none
  | .r512 => if c.avx512f then v_rsqrt_rh c .r512 x a else none

/-- `i_sqrt`. Models /repo/simdpp/detail/insn/f_sqrt.h:28-115. -/
def i_sqrt (c : Cfg) (E : Est) (r : Reg) (a : Vec w n) : Option (Vec w n) :=
  match r with
  | .r128 =>
    if h : w = 32 then
      if c.null ∨ c.neonNoFltSp then some (a.map Fp.sqrt)
      else if c.sse2 then some (a.map Fp.sqrt)
      else if c.neon64 then some (a.map Fp.sqrt)
      else if c.neonFltSp ∨ c.altivec then do
        let x ← i_rsqrt_e c E .r128 (h ▸ a)
        let x ← i_rsqrt_rh c .r128 x (h ▸ a)
        i_fmul c .r128 a (h ▸ x)
      else if c.msa then some (a.map Fp.sqrt)
      else none
    else
      if c.sse2 then some (a.map Fp.sqrt)
      else if c.neon64 then some (a.map Fp.sqrt)
      else if c.vsx206 then some (a.map Fp.sqrt)
      else if c.msa then some (a.map Fp.sqrt)
      else if c.null ∨ c.neon32 ∨ c.altivec then some (a.map Fp.sqrt)
      else none
  | .r256 => if c.avx then some (a.map Fp.sqrt) else none
  | .r512 => if c.avx512f then some (a.map Fp.sqrt) else none

end Simdpp
