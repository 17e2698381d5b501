import Verif.Model.Reduce
import Verif.Model.Mul

/-!
# reduce_mul

`simdpp/detail/insn/i_reduce_mul.h` with the public functions of `simdpp/core/i_reduce_mul.h`: 16- and 32-bit lanes, the
result has 32 bits.
-/

namespace Simdpp

variable {w n m N : Nat}

/-- `_mm{,256,512}_mul_epu32` on registers seen as 32-bit lanes. -/
def mulE (a b : Vec 32 n) : Vec 32 n :=
  (Hw.mul_ep32 false (a.recast 64 (n / 2) : Vec 64 (n / 2)) (b.recast 64 (n / 2))).recast 32 n

/-- `move4_l<s>` on the register `r`. -/
def moveL (c : Cfg) (r : Reg) (s : Nat) (a : Vec w n) : Option (Vec w n) :=
  moveWrap (128 / w) s (Vec.splat 0) (i_move_l c .int r s) a

/-- `al = shift_r<16>(ca); ah = shift_l<16>(ca); bit_or(mullo(ca, al), mulhi(ca, ah))` with `ca` the 16-bit lanes seen as
32-bit lanes. Models /repo/simdpp/detail/insn/i_reduce_mul.h:50-57, 85-92, 104-111, 130-137, 145-152, 163-170, 216-223,
250-257, 269-276, 295-302, 310-317, 328-335. -/
def prodPairs (c : Cfg) (sg : Bool) (r : Reg) (a : Vec 16 n) : Option (Vec 32 (n / 2)) := do
  let ca : Vec 32 (n / 2) := a.recast 32 (n / 2)
  let al ← shift_r_imm c false r 16 ca
  let ah ← shift_l_imm c r 16 ca
  let lo : Vec 16 n := Hw.mullo a (al.recast 16 n)
  let hi : Vec 16 n := Hw.mulhi sg a (ah.recast 16 n)
  i_bit_or c .int r (lo.recast 32 (n / 2)) (hi.recast 32 (n / 2))

/-- `r = mul_epu32(r, move4_l<1>(r))`.
Models /repo/simdpp/detail/insn/i_reduce_mul.h:58, 93, 138, 153, 171, 381, 399, 430, 441. -/
def evens (c : Cfg) (r : Reg) (a : Vec 32 n) : Option (Vec 32 n) := do
  let t ← moveL c r 1 a
  some (mulE a t)

/-- `r = _mm_mul_epu32(r, move4_l<2>(r)); return extract<0>(r)`.
Models /repo/simdpp/detail/insn/i_reduce_mul.h:59-60, 96-97, 158-159, 174-175, 382-383, 402-403, 435-436, 444-445. -/
def last128 (c : Cfg) (a : Vec 32 4) : Option (BitVec 32) := do
  let t ← moveL1 c .int 2 a
  i_extract c .int false .r128 0 (mulE a t)

/-- `_mm_mul_epu32(extract128<0>(r), extract128<1>(r))`, then as above.
Models /repo/simdpp/detail/insn/i_reduce_mul.h:94-97, 156-159, 400-403, 433-436. -/
def last256 (c : Cfg) (a : Vec 32 8) : Option (BitVec 32) := last128 c (mulE (Hw.part 4 0 a) (Hw.part 4 1 a))

/-- `r = mul_lo(r, move4_l<2>(r)); r = mul_lo(r, move4_l<1>(r)); return extract<0>(r)`.
Models /repo/simdpp/detail/insn/i_reduce_mul.h:64-66, 75-77, 183-185, 198-200, 386-388, 451-453. -/
def mulTree (c : Cfg) (sg : Bool) (a : Vec 32 4) : Option (BitVec 32) := do
  let r ← redTree c (i_mul_lo32 c .r128) [2, 1] a
  i_extract c .int sg .r128 0 r

open C in
/-- `b[0] * b[1] * b[2] * b[3]` on `uint32_t` or `int32_t`.
Models /repo/simdpp/detail/insn/i_reduce_mul.h:70-71, 235-236, 390-391. -/
def mul4 (s : Bool) (b : Vec 32 4) : Option Val := do
  let x ← mul (lane s (b.at_ 0)) (lane s (b.at_ 1))
  let y ← mul x (lane s (b.at_ 2))
  mul y (lane s (b.at_ 3))

open C in
/-- The portable loops: `T r = a.el(0)` (`start = 1`) or `T r = 1` (`start = 0`), then `r *= a.el(i)`; `T` is `int32_t` if
`t`, else `uint32_t`. Models /repo/simdpp/detail/insn/i_reduce_mul.h:44-48, 120-126, 210-214, 285-291, 375-379, 419-425. -/
def mulLoop (s t : Bool) (start : Nat) (a : Vec w n) : Option (BitVec 32) :=
  let init : Val := if start = 0 then ⟨⟨t, 32⟩, 1⟩ else cast ⟨t, 32⟩ (lane s (a.at_ 0))
  (loopM (fun i r => if i < n then (mul r (lane s (a.at_ i))).map (cast ⟨t, 32⟩) else none) start (n - start) init).map
    (toLane 32)

open C in
/-- AltiVec arrays: `T r = i_reduce_mul(a.vec<0>()); for (j = 1; ...) r *= i_reduce_mul(a.vec(j))`; `f j` is the product
of register `j`. Models /repo/simdpp/detail/insn/i_reduce_mul.h:187-191, 352-356, 455-459. -/
def mulRegs (t : Bool) (f : Nat → Option Val) (K : Nat) : Option (BitVec 32) := do
  let r0 ← f 0
  let r ← loopM (fun j r => do
    let x ← f j
    (mul r (cast ⟨t, 32⟩ x)).map (cast ⟨t, 32⟩)) 1 (K - 1) (cast ⟨t, 32⟩ r0)
  some (toLane 32 r)

/-! ## 32-bit lanes -/

/-- `i_reduce_mul(uint32x4)`. Models /repo/simdpp/detail/insn/i_reduce_mul.h:371-393. -/
def i_reduce_mul32_128 (c : Cfg) (a : Vec 32 4) : Option (BitVec 32) :=
  if c.null then mulLoop false false 1 a
  else if c.sse2 then (evens c .r128 a).bind (last128 c)
  else if c.neon ∨ c.msa then mulTree c false a
  else if c.altivec then (mul4 false a).map (C.toLane 32)
  else none

/-- `i_reduce_mul(uint32x8)`. Models /repo/simdpp/detail/insn/i_reduce_mul.h:395-405. -/
def i_reduce_mul32_256 (c : Cfg) (a : Vec 32 8) : Option (BitVec 32) := (evens c .r256 a).bind (last256 c)

/-- `i_reduce_mul(uint32<16>)`. Models /repo/simdpp/detail/insn/i_reduce_mul.h:407-413. -/
def i_reduce_mul32_512 (c : Cfg) (a : Vec 32 16) : Option (BitVec 32) :=
  (i_mul_lo32 c .r256 (Hw.part 8 0 a) (Hw.part 8 1 a)).bind (i_reduce_mul32_256 c)

/-- Arrays of 32-bit lanes. Under AVX-512F the registers are `uint32<16>` and `uint32x8 ai = a.vec(j)` does not compile.
Models /repo/simdpp/detail/insn/i_reduce_mul.h:415-461. -/
def i_reduce_mul32_arr (c : Cfg) (a : Vec 32 N) : Option (BitVec 32) :=
  if c.null then mulLoop false false 0 a
  else if c.avx512f then none
  else if c.avx2 then do
    let prod ← loopM (fun j prod => do
      let ra ← evens c .r256 (Hw.part 8 j a)
      some (mulE prod ra)) 0 (N / 8) (Vec.splat 1)
    last256 c prod
  else if c.sse2 then do
    let prod ← loopM (fun j prod => do
      let ra ← evens c .r128 (Hw.part 4 j a)
      some (mulE prod ra)) 0 (N / 4) (Vec.splat 1)
    last128 c prod
  else if c.neon ∨ c.msa then do
    let prod ← loopM (fun j prod => i_mul_lo32 c .r128 prod (Hw.part 4 j a)) 0 (N / 4) (Vec.splat 1)
    mulTree c false prod
  else if c.altivec then mulRegs false (fun j => mul4 false (Hw.part 4 j a)) (N / 4)
  else none

/-- `reduce_mul` of 32-bit lanes. Models /repo/simdpp/core/i_reduce_mul.h:42-52. -/
def reduce_mul32 (c : Cfg) (a : Vec 32 N) : Option (BitVec 32) :=
  if c.single 32 N then
    match c.regOf 32 N with
    | .r128 => i_reduce_mul32_128 c (Hw.part 4 0 a)
    | .r256 => if c.avx2 then i_reduce_mul32_256 c (Hw.part 8 0 a) else none
    | .r512 => if c.avx512f then i_reduce_mul32_512 c (Hw.part 16 0 a) else none
  else i_reduce_mul32_arr c a

/-! ## 16-bit lanes -/

/-- The AltiVec products `vec_mule(move8_l<1>(a), a)` of neighbouring lanes.
Models /repo/simdpp/detail/insn/i_reduce_mul.h:68-69, 233-234. -/
def altPairs (c : Cfg) (sg : Bool) (a : Vec 16 8) : Option (Vec 32 4) := do
  let a2 ← moveL1 c .int 1 a
  some (Hw.vmul_eo 0 sg 32 a2 a)

/-- `mul_lo` of the two registers of `to_uint32(a)`, `to_int32(a)` (MSA).
Models /repo/simdpp/detail/insn/i_reduce_mul.h:73-74, 195-196, 238-239, 360-361. -/
def msaPairs (c : Cfg) (sg : Bool) (a : Vec 16 8) : Option (Vec 32 4) := do
  let a32 : Vec 32 8 ← i_ext16_32 c sg a
  i_mul_lo32 c .r128 (Hw.part 4 0 a32) (Hw.part 4 1 a32)

/-- `i_reduce_mul(uint16x8)`, `i_reduce_mul(int16x8)`.
Models /repo/simdpp/detail/insn/i_reduce_mul.h:40-79, 206-244. -/
def i_reduce_mul16_128 (c : Cfg) (sg : Bool) (a : Vec 16 8) : Option (BitVec 32) :=
  if c.null then mulLoop sg sg 1 a
  else if c.sse2 then do
    let r ← prodPairs c sg .r128 a
    let r ← evens c .r128 r
    last128 c r
  else if c.neon then mulTree c sg (Hw.vmull sg 32 (Hw.part 4 0 a) (Hw.part 4 1 a))
  else if c.altivec then do
    let r ← altPairs c sg a
    (mul4 sg r).map (C.toLane 32)
  else if c.msa then do
    let r ← msaPairs c sg a
    mulTree c sg r
  else none

/-- `i_reduce_mul(uint16x16)`, `i_reduce_mul(int16x16)`.
Models /repo/simdpp/detail/insn/i_reduce_mul.h:81-99, 246-264. -/
def i_reduce_mul16_256 (c : Cfg) (sg : Bool) (a : Vec 16 16) : Option (BitVec 32) := do
  let r ← prodPairs c sg .r256 a
  let r ← evens c .r256 r
  last256 c r

/-- `i_reduce_mul(uint16<32>)`, `i_reduce_mul(int16<32>)`.
Models /repo/simdpp/detail/insn/i_reduce_mul.h:101-114, 266-279. -/
def i_reduce_mul16_512 (c : Cfg) (sg : Bool) (a : Vec 16 32) : Option (BitVec 32) := do
  let r ← prodPairs c sg .r512 a
  reduce_mul32 c r

/-- Arrays of 16-bit lanes. Models /repo/simdpp/detail/insn/i_reduce_mul.h:116-202, 281-367. -/
def i_reduce_mul16_arr (c : Cfg) (sg : Bool) (a : Vec 16 N) : Option (BitVec 32) :=
  if c.null then mulLoop sg false 0 a
  else if c.avx512bw then do
    let prod ← loopM (fun j prod => do
      let p ← prodPairs c sg .r512 (Hw.part 32 j a)
      let p ← evens c .r512 p
      some (mulE prod p)) 0 (N / 32) (Vec.splat 1)
    reduce_mul32 c prod
  else if c.avx2 then do
    let prod ← loopM (fun j prod => do
      let p ← prodPairs c sg .r256 (Hw.part 16 j a)
      let p ← evens c .r256 p
      some (mulE prod p)) 0 (N / 16) (Vec.splat 1)
    last256 c prod
  else if c.sse2 then do
    let prod ← loopM (fun j prod => do
      let p ← prodPairs c sg .r128 (Hw.part 8 j a)
      let p ← evens c .r128 p
      some (mulE prod p)) 0 (N / 8) (Vec.splat 1)
    last128 c prod
  else if c.neon then do
    let prod ← loopM (fun j prod =>
      i_mul_lo32 c .r128 prod (Hw.vmull sg 32 (Hw.part 4 0 (Hw.part 8 j a)) (Hw.part 4 1 (Hw.part 8 j a)))) 0 (N / 8)
      (Vec.splat 1)
    mulTree c sg prod
  else if c.altivec then mulRegs sg (fun j => (altPairs c sg (Hw.part 8 j a)).bind (mul4 sg)) (N / 8)
  else if c.msa then do
    let prod ← loopM (fun j prod => do
      let p ← msaPairs c sg (Hw.part 8 j a)
      i_mul_lo32 c .r128 prod p) 0 (N / 8) (Vec.splat 1)
    mulTree c sg prod
  else none

/-- `reduce_mul` of 16-bit lanes. Models /repo/simdpp/core/i_reduce_mul.h:30-40. -/
def reduce_mul16 (c : Cfg) (sg : Bool) (a : Vec 16 N) : Option (BitVec 32) :=
  if c.single 16 N then
    match c.regOf 16 N with
    | .r128 => i_reduce_mul16_128 c sg (Hw.part 8 0 a)
    | .r256 => if c.avx2 then i_reduce_mul16_256 c sg (Hw.part 16 0 a) else none
    | .r512 => if c.avx512bw then i_reduce_mul16_512 c sg (Hw.part 32 0 a) else none
  else i_reduce_mul16_arr c sg a

end Simdpp
