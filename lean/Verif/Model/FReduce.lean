import Verif.Model.FMul
import Verif.Model.FConv
import Verif.Model.Reduce

/-!
# `reduce_add`, `reduce_mul`, `reduce_min`, `reduce_max` on floating-point vectors

`simdpp/detail/insn/f_reduce_add.h`, `f_reduce_mul.h`, `f_reduce_min.h`, `f_reduce_max.h`. A vector of `N` lanes is the flat
`Vec w N`, as in `Model/Reduce.lean`.
-/

namespace Simdpp
open Spec

variable {w n N : Nat}

/-! ## Building blocks -/

/-- `r = a.el(0); for (i = 1; i < length; i++) r = op(r, a.el(i))`.
Models e.g. /repo/simdpp/detail/insn/f_reduce_add.h:32-36. -/
def fredLoop (op : BitVec w → BitVec w → BitVec w) (a : Vec w n) : Option (BitVec w) :=
  (Hw.extr a 0).bind fun r => loopM (fun i r => (Hw.extr a i).map (op r)) 1 (n - 1) r

/-- Pairs of adjacent lanes of the first, then of the second operand (`_mm_hadd_ps/pd`, `vpadd_f32`, `vpaddq_f64`, `vpmin_f32`,
`vpmax_f32`). -/
def Hw.pairs (op : BitVec w → BitVec w → BitVec w) (a b : Vec w n) : Vec w n := fun i =>
  if i.val < n / 2 then op (a.at_ (2 * i.val)) (a.at_ (2 * i.val + 1))
  else op (b.at_ (2 * (i.val - n / 2))) (b.at_ (2 * (i.val - n / 2) + 1))

/-- `_mm_movehl_ps(a, a)`: the high half twice. -/
def Hw.movehl_ps (a : Vec 32 4) : Vec 32 4 := fun i => a.at_ (2 + i.val % 2)

/-- `vminnmvq_f32/f64`, `vmaxnmvq_f32/f64`: across all lanes, pair by pair. -/
def Hw.acrossP (op : BitVec w → BitVec w → BitVec w) (a : Vec w n) : BitVec w :=
  if n = 2 then op (a.at_ 0) (a.at_ 1) else op (op (a.at_ 0) (a.at_ 1)) (op (a.at_ 2) (a.at_ 3))

/-- `b = op(a, movehl(a, a)); b = op(b, permute2<1,s1>(b)); _mm_cvtss_f32(b)`.
Models /repo/simdpp/detail/insn/f_reduce_add.h:43-46, f_reduce_mul.h:38-41, f_reduce_min.h:38-41, f_reduce_max.h:38-41. -/
def fredHl (c : Cfg) (gnuc : Bool) (op : Vec 32 4 → Vec 32 4 → Option (Vec 32 4)) (s1 : Nat) (a : Vec 32 4) : Option (BitVec 32) := do
  let b ← op a (Hw.movehl_ps a)
  let p ← i_permute2_32 c gnuc .flt .r128 1 s1 b
  let b ← op b p
  some (Hw.low b)

/-- `b = op(a, move4_l<1>(a)); b = op(b, move4_l<2>(b)); extract<0>(b)`.
Models /repo/simdpp/detail/insn/f_reduce_add.h:52-55, f_reduce_mul.h:47-50, f_reduce_min.h:49-51, f_reduce_max.h:49-52. -/
def fredMv (c : Cfg) (op : Vec 32 4 → Vec 32 4 → Option (Vec 32 4)) (a : Vec 32 4) : Option (BitVec 32) := do
  let t ← moveL1 c .flt 1 a
  let b ← op a t
  let t ← moveL1 c .flt 2 b
  let b ← op b t
  i_extract c .flt false .r128 0 b

/-- `b = op(a, permute2<1,s1>(a))`, lowest lane.
Models /repo/simdpp/detail/insn/f_reduce_add.h:97-98, 103-104, f_reduce_mul.h:88-89, 94-95, f_reduce_min.h:89-90, 94-95. -/
def fred64 (c : Cfg) (op : Vec 64 2 → Vec 64 2 → Option (Vec 64 2)) (s1 : Nat) (ext : Bool) (a : Vec 64 2) : Option (BitVec 64) := do
  let p ← i_permute2_64 c .flt .r128 1 s1 a
  let b ← op a p
  if ext then i_extract c .flt false .r128 0 b else some (Hw.low b)

/-! ## One 128-bit register -/

/-- Models /repo/simdpp/detail/insn/f_reduce_add.h:28-57. -/
def fradd32 (c : Cfg) (gnuc : Bool) (a : Vec 32 4) : Option (BitVec 32) :=
  if c.null ∨ c.neonNoFltSp then fredLoop Fp.add a
  else if c.sse3 then
    let b := Hw.pairs Fp.add a a
    let b := Hw.pairs Fp.add b b
    some (Hw.low b)
  else if c.sse2 then fredHl c gnuc (i_fadd c .r128) 0 a
  else if c.neonFltSp then
    let a2 : Vec 32 2 := Hw.pairs Fp.add (Hw.part 2 0 a) (Hw.part 2 1 a)
    let a2 := Hw.pairs Fp.add a2 a2
    Hw.extr a2 0
  else if c.altivec ∨ c.msa then fredMv c (i_fadd c .r128) a
  else none

/-- Models /repo/simdpp/detail/insn/f_reduce_add.h:91-112. -/
def fradd64 (c : Cfg) (a : Vec 64 2) : Option (BitVec 64) :=
  if c.sse3 then some (Hw.low (Hw.pairs Fp.add a a))
  else if c.sse2 then fred64 c (i_fadd c .r128) 1 false a
  else if c.neon64 then Hw.extr (Hw.pairs Fp.add a a) 0
  else if c.vsx206 ∨ c.msa then fred64 c (i_fadd c .r128) 1 true a
  else if c.null ∨ c.neon32 ∨ c.altivec then fredLoop Fp.add a
  else none

/-- `vmul_f32(a2, vext_f32(a2, a2, 1))`, lane 0, where `a2` is the product of the halves.
Models /repo/simdpp/detail/insn/f_reduce_mul.h:28-52. -/
def frmul32 (c : Cfg) (gnuc : Bool) (a : Vec 32 4) : Option (BitVec 32) :=
  if c.null ∨ c.neonNoFltSp then fredLoop Fp.mul a
  else if c.sse2 then fredHl c gnuc (i_fmul c .r128) 0 a
  else if c.neonFltSp then
    let a2 : Vec 32 2 := (Hw.part 2 0 a).map2 Fp.mul (Hw.part 2 1 a)
    let e : Vec 32 2 := fun i => a2.at_ ((i.val + 1) % 2)
    Hw.extr (a2.map2 Fp.mul e) 0
  else if c.altivec ∨ c.msa then fredMv c (i_fmul c .r128) a
  else none

/-- Models /repo/simdpp/detail/insn/f_reduce_mul.h:84-103. -/
def frmul64 (c : Cfg) (a : Vec 64 2) : Option (BitVec 64) :=
  if c.sse2 then fred64 c (i_fmul c .r128) 0 false a
  else if c.neon64 then Hw.extr ((Hw.part 1 0 a).map2 Fp.mul (Hw.part 1 1 a)) 0
  else if c.vsx206 ∨ c.msa then fred64 c (i_fmul c .r128) 1 true a
  else if c.null ∨ c.neon32 ∨ c.altivec then fredLoop Fp.mul a
  else none

/-- The lane operation of the portable loop (`r < x ? r : x`, `r > x ? r : x`), of `vpmin_f32`/`vpmax_f32` and of `vminnmvq`/`vmaxnmvq`. -/
def mmLoopOp (isMax : Bool) : BitVec w → BitVec w → BitVec w := if isMax then Hw.maxX else Hw.minX
def mmPairOp (isMax : Bool) : BitVec w → BitVec w → BitVec w := if isMax then Hw.maxN else Hw.minN
def mmNumOp (isMax : Bool) : BitVec w → BitVec w → BitVec w := if isMax then Hw.maxM else Hw.minM
def i_fmm (c : Cfg) (isMax : Bool) (r : Reg) (a b : Vec w n) : Option (Vec w n) := if isMax then i_fmax c r a b else i_fmin c r a b

/-- Models /repo/simdpp/detail/insn/f_reduce_min.h:28-53 and f_reduce_max.h:28-54 (whose SSE2 branch permutes with `<1,1>`). -/
def frmm32 (c : Cfg) (gnuc isMax : Bool) (a : Vec 32 4) : Option (BitVec 32) :=
  if c.null ∨ c.neonNoFltSp then fredLoop (mmLoopOp isMax) a
  else if c.sse2 then fredHl c gnuc (i_fmm c isMax .r128) (if isMax then 1 else 0) a
  else if c.neon64 then some (Hw.acrossP (mmNumOp isMax) a)
  else if c.neonFltSp then
    let a2 : Vec 32 2 := Hw.pairs (mmPairOp isMax) (Hw.part 2 0 a) (Hw.part 2 1 a)
    let a2 := Hw.pairs (mmPairOp isMax) a2 a2
    Hw.extr a2 0
  else if c.altivec ∨ c.msa then fredMv c (i_fmm c isMax .r128) a
  else none

/-- Models /repo/simdpp/detail/insn/f_reduce_min.h:85-103, f_reduce_max.h:86-104. -/
def frmm64 (c : Cfg) (isMax : Bool) (a : Vec 64 2) : Option (BitVec 64) :=
  if c.sse2 then fred64 c (i_fmm c isMax .r128) 1 false a
  else if c.neon64 then some (Hw.acrossP (mmNumOp isMax) a)
  else if c.vsx206 ∨ c.msa then fred64 c (i_fmm c isMax .r128) 1 true a
  else if c.null ∨ c.neon32 ∨ c.altivec then fredLoop (mmLoopOp isMax) a
  else none

/-! ## Wider registers and arrays -/

/-- `op(extract128<0>(a), extract128<1>(a))` reduced as one 128-bit register.
Models /repo/simdpp/detail/insn/f_reduce_mul.h:56-62, 107-113, f_reduce_min.h:57-63, 107-113, f_reduce_max.h. -/
def fredHalf (op : Vec w L → Vec w L → Option (Vec w L)) (one : Vec w L → Option (BitVec w)) (a : Vec w n) : Option (BitVec w) :=
  (op (Hw.part L 0 a) (Hw.part L 1 a)).bind one

/-- The register types: `one` and `two` reduce 128- and 256-bit registers; a 512-bit register is combined into its half.
Models e.g. /repo/simdpp/detail/insn/f_reduce_add.h:28-78. -/
def fredReg (c : Cfg) (op : Reg → {n : Nat} → Vec w n → Vec w n → Option (Vec w n))
    (one : Vec w (Reg.r128.lanes w) → Option (BitVec w)) (two : Vec w (Reg.r256.lanes w) → Option (BitVec w)) (r : Reg) (a : Vec w n) :
    Option (BitVec w) :=
  match r with
  | .r128 => one (Hw.part (Reg.r128.lanes w) 0 a)
  | .r256 => if c.avx then two (Hw.part (Reg.r256.lanes w) 0 a) else none
  | .r512 => if c.avx512f then fredHalf (op .r256) two a else none

/-- A vector of any length: one register, or `r = a.vec<0>(); for (j = 1; ...) r = op(r, a.vec(j))` reduced as one register.
Models e.g. /repo/simdpp/detail/insn/f_reduce_add.h:80-87. -/
def fredAll (c : Cfg) (op : Reg → {n : Nat} → Vec w n → Vec w n → Option (Vec w n))
    (one : Vec w (Reg.r128.lanes w) → Option (BitVec w)) (two : Vec w (Reg.r256.lanes w) → Option (BitVec w)) (a : Vec w N) :
    Option (BitVec w) :=
  if N = (c.regF w N).lanes w then fredReg c op one two (c.regF w N) a
  else do
    let r ← accArr (L := c.fastF.lanes w) (op c.fastF) a
    fredReg c op one two c.fastF r

/-- `_mm_hadd_ps` of the halves, then twice of the result with itself.
Models /repo/simdpp/detail/insn/f_reduce_add.h:61-69. -/
def fradd32_256 (a : Vec 32 8) : Option (BitVec 32) :=
  let b : Vec 32 4 := Hw.pairs Fp.add (Hw.part 4 0 a) (Hw.part 4 1 a)
  let b := Hw.pairs Fp.add b b
  let b := Hw.pairs Fp.add b b
  some (Hw.low b)

/-- Models /repo/simdpp/detail/insn/f_reduce_add.h:116-123. -/
def fradd64_256 (a : Vec 64 4) : Option (BitVec 64) :=
  let b : Vec 64 2 := Hw.pairs Fp.add (Hw.part 2 0 a) (Hw.part 2 1 a)
  let b := Hw.pairs Fp.add b b
  some (Hw.low b)

/-- `reduce_add`. Models /repo/simdpp/core/f_reduce_add.h:28-38. -/
def reduce_fadd32 (c : Cfg) (gnuc : Bool) (a : Vec 32 N) : Option (BitVec 32) := fredAll c (fun r => i_fadd c r) (fradd32 c gnuc) fradd32_256 a
def reduce_fadd64 (c : Cfg) (a : Vec 64 N) : Option (BitVec 64) := fredAll c (fun r => i_fadd c r) (fradd64 c) fradd64_256 a

/-- `reduce_mul`. Models /repo/simdpp/core/f_reduce_mul.h. -/
def reduce_fmul32 (c : Cfg) (gnuc : Bool) (a : Vec 32 N) : Option (BitVec 32) :=
  fredAll c (fun r => i_fmul c r) (frmul32 c gnuc) (fredHalf (i_fmul c .r128) (frmul32 c gnuc)) a
def reduce_fmul64 (c : Cfg) (a : Vec 64 N) : Option (BitVec 64) :=
  fredAll c (fun r => i_fmul c r) (frmul64 c) (fredHalf (i_fmul c .r128) (frmul64 c)) a

/-- `reduce_min`, `reduce_max`. Models /repo/simdpp/core/f_reduce_min.h, f_reduce_max.h. -/
def reduce_fmm32 (c : Cfg) (gnuc isMax : Bool) (a : Vec 32 N) : Option (BitVec 32) :=
  fredAll c (fun r => i_fmm c isMax r) (frmm32 c gnuc isMax) (fredHalf (i_fmm c isMax .r128) (frmm32 c gnuc isMax)) a
def reduce_fmm64 (c : Cfg) (isMax : Bool) (a : Vec 64 N) : Option (BitVec 64) :=
  fredAll c (fun r => i_fmm c isMax r) (frmm64 c isMax) (fredHalf (i_fmm c isMax .r128) (frmm64 c isMax)) a

end Simdpp
