import Verif.Model.Blend
import Verif.Model.Compare
import Verif.Model.Arith
import Verif.Model.Shift

/-!
# min, max, avg, avg_trunc, abs

`simdpp/detail/insn/i_min.h`, `i_max.h`, `i_avg.h`, `i_avg_trunc.h`, `i_abs.h`.
-/

namespace Simdpp

variable {w n : Nat}

namespace Hw

/-- `pmins*`/`pminu*`, `vminq`, `vec_min`, `min_s.X`/`min_u.X` -/
def min (s : Bool) (a b : Vec w n) : Vec w n :=
  fun i => if Spec.val s (a i) ≤ Spec.val s (b i) then a i else b i
/-- `pmaxs*`/`pmaxu*`, `vmaxq`, `vec_max`, `max_s.X`/`max_u.X` -/
def max (s : Bool) (a b : Vec w n) : Vec w n :=
  fun i => if Spec.val s (b i) ≤ Spec.val s (a i) then a i else b i
/-- `pavgb/w`, `vrhadd`, `vec_avg`, `aver_s/u`: rounding half-sum without overflow. -/
def avg (s : Bool) (a b : Vec w n) : Vec w n :=
  fun i => BitVec.ofInt w ((Spec.val s (a i) + Spec.val s (b i) + 1) / 2)
/-- `vhadd`, `ave_s/u`: truncating half-sum without overflow. -/
def hadd (s : Bool) (a b : Vec w n) : Vec w n :=
  fun i => BitVec.ofInt w ((Spec.val s (a i) + Spec.val s (b i)) / 2)
/-- `pabs`, `vabs`, `vec_abs`: modulo `2^w` (the minimum maps to itself). -/
def pabs (a : Vec w n) : Vec w n := fun i => BitVec.ofInt w (a i).toInt.natAbs
/-- `add_a.X` (MSA): sum of absolute values modulo `2^w`. -/
def add_a (a b : Vec w n) : Vec w n :=
  fun i => BitVec.ofInt w ((a i).toInt.natAbs + (b i).toInt.natAbs)

end Hw

/-- `bit_xor(v, 1 << (w-1))`: `bit_xor(a, 0x80)` etc. -/
def xorBias (c : Cfg) (r : Reg) (a : Vec w n) : Option (Vec w n) :=
  i_bit_xor c .int r a (Vec.splat (BitVec.ofNat w (2 ^ (w - 1))))

/-- `mask = cmp_lt(a, b); return blend(a, b, mask)`.
Models /repo/simdpp/detail/insn/i_min.h:202-204, 245-247, 286-288, 307-308, 334-336, 355-356. -/
def minByBlend (c : Cfg) (s : Bool) (r : Reg) (a b : Vec w n) : Option (Vec w n) := do
  let m ← i_cmp_lt c s r a b
  i_blend_vm c .int r a b m

/-- `mask = cmp_gt(a, b); return blend(a, b, mask)`.
Models /repo/simdpp/detail/insn/i_max.h:201-203, 244-246, 285-287, 306-307, 333-335, 354-355. -/
def maxByBlend (c : Cfg) (s : Bool) (r : Reg) (a b : Vec w n) : Option (Vec w n) := do
  let m ← i_cmp_gt c s r a b
  i_blend_vm c .int r a b m

/-- `i_min`. `s` selects the signed overloads.
Models /repo/simdpp/detail/insn/i_min.h:30-373: int8 30-63, uint8 74-102, int16 113-141,
uint16 152-185, int32 196-228, uint32 239-271, int64 282-319, uint64 330-367. -/
def i_min (c : Cfg) (s : Bool) (r : Reg) (a b : Vec w n) : Option (Vec w n) :=
  match r with
  | .r128 =>
    if w = 64 then
      if c.avx512vl then some (Hw.min s a b)
      else if c.avx2 ∨ c.neon64 then minByBlend c s r a b
      else if c.vsx207 then some (Hw.min s a b)
      else if c.msa then some (Hw.min s a b)
      else if c.null ∨ c.altivec then some (Null.min s a b)
      else none
    else
      if c.null then some (Null.min s a b)
      else if (w = 8 ∧ s = false) ∨ (w = 16 ∧ s = true) then
        if c.sse2 then some (Hw.min s a b)
        else if c.neon then some (Hw.min s a b)
        else if c.altivec then some (Hw.min s a b)
        else if c.msa then some (Hw.min s a b)
        else none
      else if c.sse41 then some (Hw.min s a b)
      else if c.sse2 then
        if w = 32 then minByBlend c s r a b
        else do
          -- int8: min_epu8 on biased operands; uint16: min_epi16 on biased operands
          let ca ← xorBias c r a
          let cb ← xorBias c r b
          xorBias c r (Hw.min (!s) ca cb)
      else if c.neon then some (Hw.min s a b)
      else if c.altivec then some (Hw.min s a b)
      else if c.msa then some (Hw.min s a b)
      else none
  | .r256 =>
    if c.avx2 then
      if w = 64 then
        if c.avx512vl then some (Hw.min s a b) else minByBlend c s r a b
      else some (Hw.min s a b)
    else none
  | .r512 => if c.hasInt w .r512 then some (Hw.min s a b) else none

/-- `i_max`. Models /repo/simdpp/detail/insn/i_max.h:29-372 (same structure as `i_min`). -/
def i_max (c : Cfg) (s : Bool) (r : Reg) (a b : Vec w n) : Option (Vec w n) :=
  match r with
  | .r128 =>
    if w = 64 then
      if c.avx512vl then some (Hw.max s a b)
      else if c.avx2 ∨ c.neon64 then maxByBlend c s r a b
      else if c.vsx207 then some (Hw.max s a b)
      else if c.msa then some (Hw.max s a b)
      else if c.null ∨ c.altivec then some (Null.max s a b)
      else none
    else
      if c.null then some (Null.max s a b)
      else if (w = 8 ∧ s = false) ∨ (w = 16 ∧ s = true) then
        if c.sse2 then some (Hw.max s a b)
        else if c.neon then some (Hw.max s a b)
        else if c.altivec then some (Hw.max s a b)
        else if c.msa then some (Hw.max s a b)
        else none
      else if c.sse41 then some (Hw.max s a b)
      else if c.sse2 then
        if w = 32 then maxByBlend c s r a b
        else do
          let ca ← xorBias c r a
          let cb ← xorBias c r b
          xorBias c r (Hw.max (!s) ca cb)
      else if c.neon then some (Hw.max s a b)
      else if c.altivec then some (Hw.max s a b)
      else if c.msa then some (Hw.max s a b)
      else none
  | .r256 =>
    if c.avx2 then
      if w = 64 then
        if c.avx512vl then some (Hw.max s a b) else maxByBlend c s r a b
      else some (Hw.max s a b)
    else none
  | .r512 => if c.hasInt w .r512 then some (Hw.max s a b) else none

open C in
/-- `r.el(i) = (T(a.el(i)) + b.el(i) + 1) >> 1` with `T` twice as wide as the element.
Models /repo/simdpp/detail/insn/i_avg.h:36-40, 73-77, 128-132, 165-169, 217-221, 255-259. -/
def Null.avg (s : Bool) (a b : Vec w n) : Option (Vec w n) :=
  lanesM fun i => do
    let t ← C.add (cast ⟨s, 2 * w⟩ (lane s (a i))) (lane s (b i))
    let t ← C.add t ⟨int32, 1⟩
    (shr t ⟨int32, 1⟩).map (toLane w)

open C in
/-- `r.el(i) = (T(a.el(i)) + b.el(i)) >> 1`.
Models /repo/simdpp/detail/insn/i_avg_trunc.h:36-40 and siblings. -/
def Null.avg_trunc (s : Bool) (a b : Vec w n) : Option (Vec w n) :=
  lanesM fun i => do
    let t ← C.add (cast ⟨s, 2 * w⟩ (lane s (a i))) (lane s (b i))
    (shr t ⟨int32, 1⟩).map (toLane w)

/-- `v_emul_avg_u32`: `x1 = a & b; x2 = a ^ b; round = x2 & 1; x1 += x2 >> 1; x1 += round`.
Models /repo/simdpp/detail/insn/i_avg.h:298-309. -/
def emulAvg (c : Cfg) (r : Reg) (a b : Vec w n) : Option (Vec w n) := do
  let x1 ← i_bit_and c .int r a b
  let x2 ← i_bit_xor c .int r a b
  let round ← i_bit_and c .int r x2 (Vec.splat 1)
  let x2 ← shift_r_imm c false r 1 x2
  let x1 ← i_iadd c r x1 x2
  i_iadd c r x1 round

/-- Signed average by biasing: `xor bias; unsigned avg; xor bias`.
Models /repo/simdpp/detail/insn/i_avg.h:78-85, 170-176, 311-321 (`v_emul_avg_i32`). -/
def viaBias (c : Cfg) (r : Reg) (f : Vec w n → Vec w n → Option (Vec w n)) (a b : Vec w n) :
    Option (Vec w n) := do
  let a2 ← xorBias c r a
  let b2 ← xorBias c r b
  let t ← f a2 b2
  xorBias c r t

/-- Unsigned `i_avg` (8-, 16-, 32-bit lanes).
Models /repo/simdpp/detail/insn/i_avg.h:33-66, 125-158, 214-248. -/
def i_avg_u (c : Cfg) (r : Reg) (a b : Vec w n) : Option (Vec w n) :=
  match r with
  | .r128 =>
    if c.null then Null.avg false a b
    else if c.sse2 then
      if w = 32 then emulAvg c r a b else some (Hw.avg false a b)
    else if c.neon then some (Hw.avg false a b)
    else if c.altivec then some (Hw.avg false a b)
    else if c.msa then some (Hw.avg false a b)
    else none
  | r => if c.hasInt w r then
      if w = 32 then emulAvg c r a b else some (Hw.avg false a b)
    else none

/-- `i_avg`. Models /repo/simdpp/detail/insn/i_avg.h:33-295. -/
def i_avg (c : Cfg) (s : Bool) (r : Reg) (a b : Vec w n) : Option (Vec w n) :=
  if s then
    match r with
    | .r128 =>
      if c.null then Null.avg true a b
      else if c.sse2 then viaBias c .r128 (i_avg_u c .r128) a b
      else if c.neon then some (Hw.avg true a b)
      else if c.altivec then some (Hw.avg true a b)
      else if c.msa then some (Hw.avg true a b)
      else none
    | r => if c.hasInt w r then viaBias c r (i_avg_u c r) a b else none
  else i_avg_u c r a b

/-- `v_emul_avg_trunc`: `x1 = a & b; x2 = a ^ b; x2 = shift_r<1>(x2); return add(x1, x2)`.
Models /repo/simdpp/detail/insn/i_avg_trunc.h:251-258. -/
def emulAvgTrunc (c : Cfg) (r : Reg) (a b : Vec w n) : Option (Vec w n) := do
  let x1 ← i_bit_and c .int r a b
  let x2 ← i_bit_xor c .int r a b
  let x2 ← shift_r_imm c false r 1 x2
  i_iadd c r x1 x2

/-- `i_avg_trunc`. Models /repo/simdpp/detail/insn/i_avg_trunc.h:34-297 (`v_emul_avg_trunc`,
and `v_emul_avg_trunc_i8/i16/i32` = biased). -/
def i_avg_trunc (c : Cfg) (s : Bool) (r : Reg) (a b : Vec w n) : Option (Vec w n) :=
  let emul := if s then viaBias c r (emulAvgTrunc c r) a b else emulAvgTrunc c r a b
  match r with
  | .r128 =>
    if c.null then Null.avg_trunc s a b
    else if c.sse2 ∨ c.altivec then emul
    else if c.neon then some (Hw.hadd s a b)
    else if c.msa then some (Hw.hadd s a b)
    else none
  | r => if c.hasInt w r then emul else none

/-- `clamp(v, lo, hi)` = `max(min(v, hi), lo)` on integers.
Models /repo/simdpp/core/i_clamp.h:32-78. -/
def i_clamp (c : Cfg) (s : Bool) (r : Reg) (v lo hi : Vec w n) : Option (Vec w n) := do
  i_max c s r (← i_min c s r v hi) lo

/-- `r = bit_xor(a, t); r = sub(r, t)`. -/
def absByMask (c : Cfg) (r : Reg) (a t : Vec w n) : Option (Vec w n) := do
  let x ← i_bit_xor c .int r a t
  i_isub c r x t

/-- `permute4<0,0,2,2>` on 32-bit lanes: each even lane is copied over its odd neighbour. -/
def dupEven (a : Vec w n) : Vec w n := fun i => a.at_ (i.val / 2 * 2)

/-- 64-bit `i_iabs` on SSE2 (no AVX-512): sign bit moved into the exponent, then a
floating-point comparison. Models /repo/simdpp/detail/insn/i_abs.h:161-169. -/
def abs64_sse2 (c : Cfg) (a : Vec 64 n) : Option (Vec 64 n) := do
  let ta ← i_bit_and c .int .r128 a (Vec.splat 0x8000000000000000#64)
  let ta ← shift_r_imm c false .r128 1 (ta.recast 32 (2 * n))
  let m ← f_cmp_neq c .r128 (ta.recast 64 n) (Vec.splat 0)
  absByMask c .r128 a m.unmask

/-- 64-bit `i_iabs` on NEON. Models /repo/simdpp/detail/insn/i_abs.h:170-181. -/
def abs64_neon (c : Cfg) (a : Vec 64 n) : Option (Vec 64 n) := do
  let z ← shift_r_imm c false .r128 63 a
  let m ← i_cmp_eq c .r128 (z.recast 32 (2 * n)) (Vec.splat 0)
  let z ← i_bit_not c .int .r128 (dupEven m.unmask)
  absByMask c .r128 a (z.recast 64 n)

/-- `i_iabs` on 8-, 16-, 32-bit lanes. Models /repo/simdpp/detail/insn/i_abs.h:31-153. -/
def i_iabs_narrow (c : Cfg) (r : Reg) (a : Vec w n) : Option (Vec w n) :=
  match r with
  | .r128 =>
    if c.null then Null.abs true a
    else if c.ssse3 then some (Hw.pabs a)
    else if c.sse2 then do
      let m ← i_cmp_lt c true .r128 a (Vec.splat 0)
      absByMask c .r128 a m.unmask
    else if c.neon then some (Hw.pabs a)
    else if c.altivec then some (Hw.pabs a)
    else if c.msa then some (Hw.add_a a (Vec.splat 0))
    else none
  | r => if c.hasInt w r then some (Hw.pabs a) else none

/-- `i_iabs` on 64-bit lanes. Models /repo/simdpp/detail/insn/i_abs.h:157-216. -/
def i_iabs64 (c : Cfg) (r : Reg) (a : Vec 64 n) : Option (Vec 64 n) :=
  match r with
  | .r128 =>
    if c.avx512vl then some (Hw.pabs a)
    else if c.sse2 then abs64_sse2 c a
    else if c.neon then abs64_neon c a
    else if c.vsx207 then some (Hw.pabs a)
    else if c.msa then some (Hw.add_a a (Vec.splat 0))
    else if c.null ∨ c.altivec then Null.abs true a
    else none
  | .r256 =>
    if c.avx2 then
      if c.avx512vl then some (Hw.pabs a)
      else absByMask c .r256 a (Hw.sel (Hw.gtP true (Vec.splat 0) a))
    else none
  | .r512 => if c.hasInt 64 .r512 then some (Hw.pabs a) else none

/-- `i_iabs` (public `abs`, /repo/simdpp/core/i_abs.h:36-96). -/
def i_iabs (c : Cfg) (r : Reg) (a : Vec w n) : Option (Vec w n) :=
  if h : w = 64 then (h ▸ i_iabs64 c r (h ▸ a : Vec 64 n)) else i_iabs_narrow c r a

end Simdpp
