import Verif.Model.FltOps
import Verif.Model.Conv
import Verif.Model.Cast
import Verif.Model.Blend

/-!
# Conversions between integers and floating point, and between `float` and `double`

`simdpp/detail/insn/conv_any_to_float{32,64}.h`, `conv_float_to_int{8,16,32,64}.h` (the wrappers in `simdpp/core/to_float*.h` and
`to_int*.h` only forward). A vector of `N` lanes is modelled flat, as in `Conv.lean`; a template over registers is `convUp` or
`convDown` of that file. `sg` is the signedness of the integer.
Simplified: the scalar conversions `float(x)`, `double(x)` and all conversion instructions round to nearest even (the default
mode); big-endian branches are not modelled; little-endian VSX `float64` to `float32` is not modelled (`none`).
-/

namespace Simdpp
open Spec

variable {w v n N : Nat}

/-- Widest register for floating-point lanes. Models /repo/simdpp/types/fwd.h:98-141 (`SIMDPP_FAST_FLOAT*_SIZE`). -/
def Cfg.fastF (c : Cfg) : Reg := if c.avx512f then .r512 else if c.avx then .r256 else .r128

/-- Register type of a vector of `N` `w`-bit floating-point lanes, as `Cfg.regOf`.
Models /repo/simdpp/types/float32.h, /repo/simdpp/types/float32x4.h, float32x8.h, float32x16.h and the `float64` files. -/
def Cfg.regF (c : Cfg) (w N : Nat) : Reg :=
  if N = Reg.r128.lanes w then .r128
  else if c.avx ∧ N = Reg.r256.lanes w then .r256
  else if c.avx512f ∧ N = Reg.r512.lanes w then .r512
  else c.fastF

/-- AVX without AVX2: floating-point registers are twice as wide as integer registers. -/
def Cfg.avxOnly1 (c : Cfg) : Bool := c.avx && !c.avx2

namespace Hw

/-- Integer to floating point, to nearest even (`_mm_cvtepi32_ps`, `_mm256_cvtepi32_pd`, `_mm512_cvtepu32_ps`, `_mm_cvtepi64_pd`,
`vcvtq_f32_s32`, `vcvtq_f64_u64`, `vec_ctf(·, 0)`, `__msa_ffint_s_w`, ..., and the scalar casts). -/
def i2f (sg : Bool) (v : Nat) (x : BitVec w) : BitVec v := Fp.ofInt v (val sg x)

/-- Floating point to integer, truncating, x86 (`_mm_cvttps_epi32`, `_mm512_cvttps_epu32`, `_mm_cvttpd_epi64`, ...): NaN and
values out of range give the indefinite integer (`0x80...0` signed, all ones unsigned). -/
def cvtt (sg : Bool) (v : Nat) (x : BitVec w) : BitVec v :=
  if Flt.isNaN x ∨ Fp.truncInt x < lo sg v ∨ hi sg v < Fp.truncInt x then (if sg then BitVec.ofNat v (2 ^ (v - 1)) else BitVec.allOnes v)
  else lane v (Fp.truncInt x)

/-- Floating point to integer, truncating and saturating, NaN to zero (`vcvtq_s32_f32`, `vcvtq_u64_f64`, `vec_cts`, `vec_ctu`,
`__msa_ftrunc_s_w`, `__msa_ftrunc_u_d`, ...). -/
def fcvtz (sg : Bool) (v : Nat) (x : BitVec w) : BitVec v :=
  if Flt.isNaN x then 0 else lane v (clamp sg v (Fp.truncInt x))

/-- Saturating narrowing (`vqmovn_s64`, `vqmovn_u64`). -/
def qmovn (sg : Bool) (v : Nat) (x : BitVec w) : BitVec v := lane v (clamp sg v (val sg x))

/-- The number of the other width towards zero (`_mm512_cvt_roundpd_ps` with `_MM_FROUND_TO_ZERO`): the greatest magnitude not
above; a finite number never becomes infinite. -/
def convZ (v : Nat) (x : BitVec w) : BitVec v :=
  if Flt.isNaN x then Fp.nan v
  else if Fp.isInf x then Fp.mk v x.msb (Flt.infBits v)
  else
    let m := Fp.numMag w (Flt.mag x)
    let k := Fp.unit w - Fp.unit v
    let q := max (Fp.len m - Fp.prec v) k
    Fp.mk v x.msb (min (Flt.infBits v - 1) ((q - k) * 2 ^ (Fp.prec v - 1) + m / 2 ^ q))

end Hw

/-- The scalar casts `int32_t(x)`, `uint64_t(x)`, ...: undefined when the integer part is out of range ([conv.fpint]). -/
def Null.f2i (sg : Bool) (v : Nat) (x : BitVec w) : Option (BitVec v) :=
  if Fp.isFinite x ∧ lo sg v ≤ Fp.truncInt x ∧ Fp.truncInt x ≤ hi sg v then some (lane v (Fp.truncInt x)) else none

/-- `cvt(a)` / `cvt(move4_l<s>(a))` for the listed shifts `s` (0: no move), each filling a register of `m` lanes from the lowest
lanes of its operand. -/
def fcvtMoves (c : Cfg) (k : Kind) (g : BitVec w → BitVec v) (m : Nat) (ss : List Nat) (a : Vec w n) (p : Nat) : Option (Vec v m) :=
  let s := ss.getD p 0
  let f : Vec w n → Vec v m := fun t i => g (t.at_ i.val)
  if s = 0 then some (f a) else (moveL1 c k s a).map f

/-- Convert part by part: `r.vec<p>() = cvt(a_p)`, `combine(cvt(a_0), cvt(a_1))`. -/
def fcvtParts (g : BitVec w → BitVec v) (m : Nat) (a : Vec w n) : Option (Vec v N) :=
  catM m (fun p => some (fun i => g (Hw.part m p a i)))

/-! ## Integers to `float` -/

/-- `add(cvtepi32_ps(a), bit_and(mask_float32(cmp_lt(int32(a), 0)), splat(2^32)))`.
Models /repo/simdpp/detail/insn/conv_any_to_float32.h:321-332, 357-362. -/
def u32f32 (c : Cfg) (r : Reg) (a : Vec 32 n) : Option (Vec 32 n) := do
  let lt ← i_cmp_lt c true r a (Vec.splat 0)
  let m ← Cast.bit_cast_mask c .int .flt r lt
  let b ← i_bit_and_vm c .flt r (Vec.splat 0x4f800000#32) m
  i_fadd c r (a.map (Hw.i2f true 32)) b

/-- `i_to_float32(int32<N>)`, `i_to_float32(uint32<N>)` on one register.
Models /repo/simdpp/detail/insn/conv_any_to_float32.h:225-274, 312-375. -/
def i32f32 (c : Cfg) (sg : Bool) (r : Reg) (a : Vec 32 n) : Option (Vec 32 n) :=
  match r with
  | .r128 =>
    if c.null then some (a.map (Hw.i2f sg 32))
    else if c.sse2 then (if sg then some (a.map (Hw.i2f true 32)) else u32f32 c .r128 a)
    else if c.neonNoFltSp then some (a.map (Hw.i2f sg 32))
    else if c.neonFltSp then some (a.map (Hw.i2f sg 32))
    else if c.altivec then some (a.map (Hw.i2f sg 32))
    else if c.msa then some (a.map (Hw.i2f sg 32))
    else none
  | .r256 =>
    if c.avx then
      if sg then some (a.map (Hw.i2f true 32))
      else if c.avx512f then some (a.map (Hw.i2f false 32))
      else if c.avx2 then u32f32 c .r256 a
      else catM 4 (fun p => u32f32 c .r128 (Hw.part 4 p a))
    else none
  | .r512 => if c.avx512f then some (a.map (Hw.i2f sg 32)) else none

/-- `i_to_float32(int32<N>)`, `i_to_float32(uint32<N>)`.
Models /repo/simdpp/detail/insn/conv_any_to_float32.h:225-308, 312-409. -/
def i_i32f32 (c : Cfg) (sg : Bool) (a : Vec 32 N) : Option (Vec 32 N) :=
  if N = 4 then i32f32 c sg .r128 a
  else if c.avx ∧ N = 8 then i32f32 c sg .r256 a
  else if c.avx512f ∧ N = 16 then i32f32 c sg .r512 a
  else
    let r := c.regF 32 N
    convDown (if c.avxOnly1 then 2 else 1) (if c.avxOnly1 then 4 else r.lanes 32) (N / r.lanes 32) (m := r.lanes 32) (i32f32 c sg r) a

/-! ## Integers to `double` -/

/-- `blend(add(f, 2^32), f, cmp_lt(f, 0))` on one register.
Models /repo/simdpp/detail/insn/conv_any_to_float64.h:260-262, 314-316. -/
def fixU (c : Cfg) (r : Reg) (f : Vec 64 n) : Option (Vec 64 n) := do
  let m ← f_cmp_lt c r f (Vec.splat 0)
  let s ← i_fadd c r f (Vec.splat 0x41f0000000000000#64)
  i_blend_vm c .flt r s f m

/-- `i_to_float64(int32<N>)`, `i_to_float64(uint32<N>)` from one integer register.
Models /repo/simdpp/detail/insn/conv_any_to_float64.h:137-210, 247-333. -/
def i32f64 (c : Cfg) (sg : Bool) (r : Reg) (a : Vec 32 n) : Option (Vec 64 n) :=
  match r with
  | .r128 =>
    if sg then
      if c.avx then some (a.map (Hw.i2f true 64))
      else if c.sse2 then catM 2 (fcvtMoves c .int (Hw.i2f true 64) 2 [0, 2] a)
      else if c.neon64 then catM 2 (fun p => some ((Hw.cvt true 64 (Hw.half (p = 1) a) : Vec 64 2).map (Hw.i2f true 64)))
      else if c.vsx206 then
        if c.vsx207 then (i_ext32_64 c true a).bind (fcvtParts (Hw.i2f true 64) 2)
        else do
          let sign ← shift_r_imm c true .r128 31 a
          catM 2 (fun p => (if p = 0 then some (Hw.mergeh a sign) else some (Hw.mergel a sign)).map
            fun t => (t.recast 64 2).map (Hw.i2f true 64))
      else if c.msa then (i_ext32_64 c true a).bind (fcvtParts (Hw.i2f true 64) 2)
      else if c.null ∨ c.neon ∨ c.altivec then some (a.map (Hw.i2f true 64))
      else none
    else
      if c.avx512vl then some (a.map (Hw.i2f false 64))
      else if c.sse2 then
        if c.avx then fixU c .r256 (a.map (Hw.i2f true 64))
        else catM 2 (fun p => (fcvtMoves c .int (Hw.i2f true 64) 2 [0, 2] a p).bind (fixU c .r128))
      else if c.neon64 then catM 2 (fun p => some ((Hw.cvt false 64 (Hw.half (p = 1) a) : Vec 64 2).map (Hw.i2f false 64)))
      else if c.vsx206 then
        if c.vsx207 then (i_ext32_64 c false a).bind (fcvtParts (Hw.i2f false 64) 2)
        else catM 2 (fun p => (if p = 0 then some (Hw.mergeh a (Vec.splat 0)) else some (Hw.mergel a (Vec.splat 0))).map
            fun t => (t.recast 64 2).map (Hw.i2f false 64))
      else if c.msa then (i_ext32_64 c false a).bind (fcvtParts (Hw.i2f false 64) 2)
      else if c.null ∨ c.neon ∨ c.altivec then some (a.map (Hw.i2f false 64))
      else none
  | .r256 =>
    if c.avx2 then
      if c.avx512f then some (a.map (Hw.i2f sg 64))
      else if sg then fcvtParts (Hw.i2f true 64) 4 a
      else catM 4 (fun p => fixU c .r256 ((Hw.part 4 p a).map (Hw.i2f true 64)))
    else none
  | .r512 => if c.avx512f then fcvtParts (Hw.i2f sg 64) 8 a else none

/-- `i_to_float64(int32<N>)`, `i_to_float64(uint32<N>)`.
Models /repo/simdpp/detail/insn/conv_any_to_float64.h:137-243, 247-367. -/
def i_i32f64 (c : Cfg) (sg : Bool) (a : Vec 32 N) : Option (Vec 64 N) :=
  if N = 4 then i32f64 c sg .r128 a
  else if c.avx2 ∧ N = 8 then i32f64 c sg .r256 a
  else if c.avx512f ∧ N = 16 then i32f64 c sg .r512 a
  else
    let r := c.regOf 32 N
    convUp (if c.avxOnly1 then 1 else 2) (if c.avxOnly1 then 4 else r.lanes 64) (N / r.lanes 32) (m := r.lanes 32) (i32f64 c sg r) a

/-- `i_to_float64(int64<N>)`, `i_to_float64(uint64<N>)` on one register. The AVX-512 instructions belong to AVX512DQ.
Models /repo/simdpp/detail/insn/conv_any_to_float64.h:399-442, 479-522. -/
def i64f64 (c : Cfg) (sg : Bool) (r : Reg) (a : Vec 64 n) : Option (Vec 64 n) :=
  match r with
  | .r128 =>
    if c.avx512vl then (if c.avx512dq then some (a.map (Hw.i2f sg 64)) else none)
    else if c.neon64 then some (a.map (Hw.i2f sg 64))
    else if c.vsx206 then some (a.map (Hw.i2f sg 64))
    else if c.msa then some (a.map (Hw.i2f sg 64))
    else if c.null ∨ c.neon ∨ c.altivec then some (a.map (Hw.i2f sg 64))
    else none
  | .r256 =>
    if c.avx then (if c.avx512vl ∧ c.avx512dq then some (a.map (Hw.i2f sg 64)) else none)
    else none
  | .r512 => if c.avx512f ∧ c.avx512dq then some (a.map (Hw.i2f sg 64)) else none

/-- `i_to_float64(int64<N>)`, `i_to_float64(uint64<N>)`.
Models /repo/simdpp/detail/insn/conv_any_to_float64.h:399-475, 479-555. -/
def i_i64f64 (c : Cfg) (sg : Bool) (a : Vec 64 N) : Option (Vec 64 N) :=
  if N = 2 then i64f64 c sg .r128 a
  else if c.avx ∧ N = 4 then i64f64 c sg .r256 a
  else if c.avx512f ∧ N = 8 then i64f64 c sg .r512 a
  else
    let r := c.regF 64 N
    convDown (if c.avxOnly1 then 2 else 1) (if c.avxOnly1 then 2 else r.lanes 64) (N / r.lanes 64) (m := r.lanes 64) (i64f64 c sg r) a

/-! ## `float` and `double` -/

/-- `i_to_float64(float32<N>)` from one register.
Models /repo/simdpp/detail/insn/conv_any_to_float64.h:32-104. -/
def f32f64 (c : Cfg) (r : Reg) (a : Vec 32 n) : Option (Vec 64 n) :=
  match r with
  | .r128 =>
    if c.avx then some (a.map (Fp.conv 64))
    else if c.sse2 then catM 2 (fcvtMoves c .flt (Fp.conv 64) 2 [0, 2] a)
    else if c.neon64 then catM 2 (fun p => some (fun i : Fin 2 => Fp.conv 64 ((Hw.half (p = 1) a).at_ i.val)))
    else if c.vsx206 then
      catM 2 (fun p => (if p = 0 then i_zip_lo c .flt .r128 (Vec.splat 0) a else i_zip_hi c .flt .r128 (Vec.splat 0) a).map
        fun t (i : Fin 2) => Fp.conv 64 (t.at_ (2 * i.val + 1)))
    else if c.msa then catM 2 (fun p => some (fun i : Fin 2 => Fp.conv 64 ((Hw.half (p = 1) a).at_ i.val)))
    else if c.null ∨ c.neon32 ∨ c.altivec then some (a.map (Fp.conv 64))
    else none
  | .r256 =>
    if c.avx then (if c.avx512f then some (a.map (Fp.conv 64)) else fcvtParts (Fp.conv 64) 4 a)
    else none
  | .r512 => if c.avx512f then fcvtParts (Fp.conv 64) 8 a else none

/-- `i_to_float64(float32<N>)`. Models /repo/simdpp/detail/insn/conv_any_to_float64.h:32-133. -/
def i_f32f64 (c : Cfg) (a : Vec 32 N) : Option (Vec 64 N) :=
  if N = 4 then f32f64 c .r128 a
  else if c.avx ∧ N = 8 then f32f64 c .r256 a
  else if c.avx512f ∧ N = 16 then f32f64 c .r512 a
  else
    let r := c.regF 32 N
    convUp 2 (r.lanes 64) (N / r.lanes 32) (m := r.lanes 32) (f32f64 c r) a

/-- `i_to_float32(float64<N>)` into one register. `__msa_fexdo_w(ws, wt)` puts the lanes of `ws` in the upper half.
Models /repo/simdpp/detail/insn/conv_any_to_float32.h:33-91. -/
def f64f32 (c : Cfg) (r : Reg) (a : Vec 64 n) : Option (Vec 32 n) :=
  match r with
  | .r128 =>
    if c.avx then some (a.map (Fp.conv 32))
    else if c.sse2 then fcvtParts (Fp.conv 32) 2 a
    else if c.neon64 then fcvtParts (Fp.conv 32) 2 a
    else if c.vsx206 then none -- see `FConvVsx.lean`
    else if c.msa then catM 2 (fun p => some (fun i => Fp.conv 32 (Hw.part 2 (1 - p) a i)))
    else if c.null ∨ c.neon ∨ c.altivec then some (a.map (Fp.conv 32))
    else none
  | .r256 =>
    if c.avx then
      if c.avx512f then some (a.map (Hw.convZ 32))
      else fcvtParts (Fp.conv 32) 4 a
    else none
  | .r512 => if c.avx512f then fcvtParts (Hw.convZ 32) 8 a else none

/-- `i_to_float32(float64<N>)`. Models /repo/simdpp/detail/insn/conv_any_to_float32.h:33-121. -/
def i_f64f32 (c : Cfg) (a : Vec 64 N) : Option (Vec 32 N) :=
  if N = 4 then f64f32 c .r128 a
  else if c.avx ∧ N = 8 then f64f32 c .r256 a
  else if c.avx512f ∧ N = 16 then f64f32 c .r512 a
  else
    let r := c.regF 32 N
    convDown 2 (r.lanes 64) (N / r.lanes 32) (m := r.lanes 32) (f64f32 c r) a

/-- `i_to_float32(int64<N>)`, `i_to_float32(uint64<N>)`. The AVX-512 instructions belong to AVX512DQ.
Models /repo/simdpp/detail/insn/conv_any_to_float32.h:125-171, 175-221. -/
def i_i64f32 (c : Cfg) (sg : Bool) (a : Vec 64 N) : Option (Vec 32 N) :=
  if N = 4 then
    if c.null then some (a.map (Hw.i2f sg 32))
    else if c.avx512vl then (if c.avx512dq then some (a.map (Hw.i2f sg 32)) else none)
    else (i_i64f64 c sg a).bind (i_f64f32 c)
  else if c.avx ∧ N = 8 then (if c.avx512dq then some (a.map (Hw.i2f sg 32)) else none)
  else if c.avx512f ∧ N = 16 then
    if c.avx512dq then fcvtParts (Hw.i2f sg 32) 8 a
    else (i_i64f64 c sg a).bind (i_f64f32 c)
  else (i_i64f64 c sg a).bind (i_f64f32 c)

/-- `i_to_float32({u,}int{8,16}<N>)`. Models /repo/simdpp/detail/insn/conv_any_to_float32.h:413-437. -/
def i_narrow_f32 (c : Cfg) (sg : Bool) (w : Nat) (a : Vec w N) : Option (Vec 32 N) :=
  if h : w = 8 then (i_ext8_32 c sg (h ▸ a)).bind (i_i32f32 c sg)
  else if h : w = 16 then (i_ext16_32 c sg (h ▸ a)).bind (i_i32f32 c sg)
  else none

/-- `i_to_float64({u,}int{8,16}<N>)`. Models /repo/simdpp/detail/insn/conv_any_to_float64.h:371-395. -/
def i_narrow_f64 (c : Cfg) (sg : Bool) (w : Nat) (a : Vec w N) : Option (Vec 64 N) :=
  if h : w = 8 then (i_ext8_32 c sg (h ▸ a)).bind (i_i32f64 c sg)
  else if h : w = 16 then (i_ext16_32 c sg (h ▸ a)).bind (i_i32f64 c sg)
  else none

/-! ## Floating point to integers -/

/-- `to_int32(sub(a, bit_and(cmp_ge(a, 2^31), splat(2^32))))`.
Models /repo/simdpp/detail/insn/conv_float_to_int32.h:143-150, 164-165. -/
def f32u32 (c : Cfg) (r : Reg) (a : Vec 32 n) : Option (Vec 32 n) := do
  let m ← f_cmp_ge c r a (Vec.splat 0x4f000000#32)
  let b ← i_bit_and_vm c .flt r (Vec.splat 0x4f800000#32) m
  let d ← i_fsub c r a b
  some (d.map (Hw.cvtt true 32))

/-- `i_to_int32(float32<N>)`, `i_to_uint32(float32<N>)` on one register.
Models /repo/simdpp/detail/insn/conv_float_to_int32.h:27-77, 114-176. -/
def f32i32 (c : Cfg) (sg : Bool) (r : Reg) (a : Vec 32 n) : Option (Vec 32 n) :=
  match r with
  | .r128 =>
    if c.null then lanesM (fun i => Null.f2i sg 32 (a i))
    else if sg then
      if c.sse2 then some (a.map (Hw.cvtt true 32))
      else if c.neonNoFltSp then lanesM (fun i => Null.f2i true 32 (a i))
      else if c.neonFltSp then some (a.map (Hw.fcvtz true 32))
      else if c.msa then some (a.map (Hw.fcvtz true 32))
      else if c.altivec then some (a.map (Hw.fcvtz true 32))
      else none
    else
      if c.avx512vl then some (a.map (Hw.cvtt false 32))
      else if c.avx512f then some (a.map (Hw.cvtt false 32))
      else if c.neonNoFltSp then lanesM (fun i => Null.f2i false 32 (a i))
      else if c.neonFltSp then some (a.map (Hw.fcvtz false 32))
      else if c.msa then some (a.map (Hw.fcvtz false 32))
      else if c.altivec then some (a.map (Hw.fcvtz false 32))
      else f32u32 c .r128 a
  | .r256 =>
    if c.avx then
      if sg then some (a.map (Hw.cvtt true 32))
      else if c.avx512f then some (a.map (Hw.cvtt false 32))
      else f32u32 c .r256 a
    else none
  | .r512 => if c.avx512f then some (a.map (Hw.cvtt sg 32)) else none

/-- `i_to_int32(float32<N>)`, `i_to_uint32(float32<N>)`.
Models /repo/simdpp/detail/insn/conv_float_to_int32.h:27-110, 114-209. -/
def i_f32i32 (c : Cfg) (sg : Bool) (a : Vec 32 N) : Option (Vec 32 N) :=
  if N = 4 then f32i32 c sg .r128 a
  else if c.avx ∧ N = 8 then f32i32 c sg .r256 a
  else if c.avx512f ∧ N = 16 then f32i32 c sg .r512 a
  else
    let r := c.regF 32 N
    convUp (if c.avxOnly1 then 2 else 1) (if c.avxOnly1 then 4 else r.lanes 32) (N / r.lanes 32) (m := r.lanes 32) (f32i32 c sg r) a

/-- `i_to_int32(float64<N>)`, `i_to_uint32(float64<N>)` into one register.
Models /repo/simdpp/detail/insn/conv_float_to_int32.h:213-272, 310-377. -/
def f64i32 (c : Cfg) (sg : Bool) (r : Reg) (a : Vec 64 n) : Option (Vec 32 n) :=
  match r with
  | .r128 =>
    if sg ∧ c.avx512vl then some (a.map (Hw.cvtt true 32))
    else if sg ∧ c.sse2 then do
      let r1 : Vec 32 4 := fun i => if i.val < 2 then Hw.cvtt true 32 ((Hw.part 2 0 a : Vec 64 2).at_ i.val) else 0
      let r2 : Vec 32 4 := fun i => if i.val < 2 then Hw.cvtt true 32 ((Hw.part 2 1 a : Vec 64 2).at_ i.val) else 0
      let t ← i_zip_lo c .int .r128 (r1.recast 64 2 : Vec 64 2) (r2.recast 64 2)
      some (t.recast 32 n)
    else if ¬ sg ∧ c.avx512f then some (a.map (Hw.cvtt false 32))
    else if c.neon64 then fcvtParts (fun x => Hw.qmovn sg 32 (Hw.fcvtz sg 64 x)) 2 a
    else if c.vsx206 ∨ c.msa then do
      let r1 : Vec 64 2 := fun i => Hw.fcvtz sg 64 (Hw.part 2 0 a i)
      let r2 : Vec 64 2 := fun i => Hw.fcvtz sg 64 (Hw.part 2 1 a i)
      let t ← i_unzip_lo c .int .r128 (r1.recast 32 4 : Vec 32 4) (r2.recast 32 4)
      some (t.recast 32 n)
    else if c.null ∨ c.neon32 ∨ c.altivec then lanesM (fun i => Null.f2i sg 32 (a i))
    else none
  | .r256 =>
    if c.avx then
      if c.avx512f then some (a.map (Hw.cvtt sg 32))
      else if sg then fcvtParts (Hw.cvtt true 32) 4 a
      else none
    else none
  | .r512 => if c.avx512f then fcvtParts (Hw.cvtt sg 32) 8 a else none

/-- `i_to_int32(float64<N>)`, `i_to_uint32(float64<N>)`.
Models /repo/simdpp/detail/insn/conv_float_to_int32.h:213-306, 310-410. -/
def i_f64i32 (c : Cfg) (sg : Bool) (a : Vec 64 N) : Option (Vec 32 N) :=
  if N = 4 then f64i32 c sg .r128 a
  else if c.avx ∧ N = 8 then f64i32 c sg .r256 a
  else if c.avx512f ∧ N = 16 then f64i32 c sg .r512 a
  else
    let r := c.regOf 32 N
    convDown (if c.avxOnly1 then 1 else 2) (if c.avxOnly1 then 4 else r.lanes 64) (N / r.lanes 32) (m := r.lanes 32) (f64i32 c sg r) a

/-- `i_to_int64(float64<N>)`, `i_to_uint64(float64<N>)` on one register.
Models /repo/simdpp/detail/insn/conv_float_to_int64.h:24-77, 114-167. -/
def f64i64 (c : Cfg) (sg : Bool) (r : Reg) (a : Vec 64 n) : Option (Vec 64 n) :=
  match r with
  | .r128 =>
    if c.avx512dq then some (a.map (Hw.cvtt sg 64))
    else if c.neon64 then some (a.map (Hw.fcvtz sg 64))
    else if c.vsx206 ∨ c.vsx207 then some (a.map (Hw.fcvtz sg 64))
    else if c.msa then some (a.map (Hw.fcvtz sg 64))
    else if c.null ∨ c.neon32 ∨ c.altivec then lanesM (fun i => Null.f2i sg 64 (a i))
    else none
  | .r256 => if c.avx then (if c.avx512dq then some (a.map (Hw.cvtt sg 64)) else none) else none
  | .r512 => if c.avx512f then (if c.avx512dq then some (a.map (Hw.cvtt sg 64)) else none) else none

/-- `i_to_int64(float64<N>)`, `i_to_uint64(float64<N>)`.
Models /repo/simdpp/detail/insn/conv_float_to_int64.h:24-110, 114-200. -/
def i_f64i64 (c : Cfg) (sg : Bool) (a : Vec 64 N) : Option (Vec 64 N) :=
  if N = 2 then f64i64 c sg .r128 a
  else if c.avx ∧ N = 4 then f64i64 c sg .r256 a
  else if c.avx512f ∧ N = 8 then f64i64 c sg .r512 a
  else
    let r := c.regF 64 N
    convUp (if c.avxOnly1 then 2 else 1) (if c.avxOnly1 then 2 else r.lanes 64) (N / r.lanes 64) (m := r.lanes 64) (f64i64 c sg r) a

/-- `i_to_int64(float32<N>)`, `i_to_uint64(float32<N>)` from one register. The portable `i_to_uint64` casts to `int64_t`.
Models /repo/simdpp/detail/insn/conv_float_to_int64.h:204-256, 298-350. -/
def f32i64 (c : Cfg) (sg : Bool) (r : Reg) (a : Vec 32 n) : Option (Vec 64 n) :=
  match r with
  | .r128 =>
    if c.avx512dq then some (a.map (Hw.cvtt sg 64))
    else if c.neon64 ∨ c.vsx206 ∨ c.msa then (i_f32f64 c a).bind (i_f64i64 c sg)
    else if c.null ∨ c.neon32 ∨ c.altivec then lanesM (fun i => Null.f2i true 64 (a i))
    else none
  | .r256 => if c.avx then (if c.avx512dq ∧ c.avx512vl then some (a.map (Hw.cvtt sg 64)) else none) else none
  | .r512 => if c.avx512f then (if c.avx512dq then fcvtParts (Hw.cvtt sg 64) 8 a else none) else none

/-- `i_to_int64(float32<N>)`, `i_to_uint64(float32<N>)`.
Models /repo/simdpp/detail/insn/conv_float_to_int64.h:204-294, 298-389. -/
def i_f32i64 (c : Cfg) (sg : Bool) (a : Vec 32 N) : Option (Vec 64 N) :=
  if N = 4 then f32i64 c sg .r128 a
  else if c.avx ∧ N = 8 then f32i64 c sg .r256 a
  else if c.avx512f ∧ N = 16 then f32i64 c sg .r512 a
  else
    let r := c.regF 32 N
    convUp (if c.avxOnly1 then 4 else 2) (if c.avxOnly1 then 2 else r.lanes 64) (N / r.lanes 32) (m := r.lanes 32) (f32i64 c sg r) a

/-- `i_to_{u,}int32` of floating-point lanes of width `w`. -/
def i_f2i32 (c : Cfg) (sg : Bool) (w : Nat) (a : Vec w N) : Option (Vec 32 N) :=
  if h : w = 32 then i_f32i32 c sg (h ▸ a) else if h : w = 64 then i_f64i32 c sg (h ▸ a) else none

/-- `i_to_{u,}int16(float<N>)`: both signs convert to `int32` and drop the upper half.
Models /repo/simdpp/detail/insn/conv_float_to_int16.h:25-47. -/
def i_f2i16 (c : Cfg) (w : Nat) (a : Vec w N) : Option (Vec 16 N) := (i_f2i32 c true w a).bind (i_trunc32_16 c)

/-- `i_to_{u,}int8(float<N>)`. Models /repo/simdpp/detail/insn/conv_float_to_int8.h:25-47. -/
def i_f2i8 (c : Cfg) (w : Nat) (a : Vec w N) : Option (Vec 8 N) := (i_f2i32 c true w a).bind (i_trunc32_8 c)

end Simdpp
