import Verif.Model.ExtractBits
import Verif.Model.FConv

/-!
# Big-endian AltiVec and VSX builds

The `SIMDPP_BIG_ENDIAN` branches of `simdpp/detail/insn` and the AltiVec branches that change the lane width of a register
without looking at the byte order. The rest of the model is for little-endian targets; only code whose result depends on the
byte order is repeated here. Lanes are numbered as the library does (`el(0)` is the first in memory) and GCC and clang number
the elements of AltiVec built-ins the same way, so element-wise built-ins are those of the little-endian model.

Scope: one 128-bit register (longer vectors are arrays of registers, see `Array.lean`). `and`, `add`, `shift` by an immediate,
`extract` of a lane and `splat` act on each lane, are covered by the other parts of the model, and are written here as the lane
operation. Big-endian MSA is not modelled.
-/

namespace Simdpp.BE

open Spec

variable {w v n m : Nat}

/-- Bit `p` of the register in the order of memory: counted from the most significant bit of lane 0. -/
def bit (a : Vec w n) (p : Nat) : Bool := (a.at_ (p / w)).getLsbD (w - 1 - p % w)

/-- Reinterpret the register with another lane type on a big-endian target: the first lane in memory holds the most significant
part of the lane it becomes part of. Models the converting constructors (e.g. /repo/simdpp/types/int16x8.h:60-66) and the
casts `(__vector uint16_t) a.native()`. -/
def recast (v m : Nat) (a : Vec w n) : Vec v m := fun j => ofBits v (fun k => bit a (j.val * v + (v - 1 - k)))

/-! ## Moving bytes -/

/-- `vec_sld(x, y, k)` with a literal `k` of at most 15: bytes `k .. k+15` of `x:y` (`none`: does not compile). -/
def sld (x y : Vec 8 16) (k : Nat) : Option (Vec 8 16) :=
  if k < 16 then some (fun i => if i.val + k < 16 then x.at_ (i.val + k) else y.at_ (i.val + k - 16)) else none

/-- `vec_sld_biendian<shift>(lower, upper)`. Models /repo/simdpp/detail/insn/move_l.h:27-31. -/
def sldBi (s : Nat) (lower upper : Vec 8 16) : Option (Vec 8 16) := sld lower upper s

/-- `(T) f((uint8<16>) a, (uint8<16>) b)` -/
def onBytes2 (f : Vec 8 16 → Vec 8 16 → Option (Vec 8 16)) (a b : Vec w n) : Option (Vec w n) :=
  (f (recast 8 16 a) (recast 8 16 b)).map (recast w n)

/-- `i_move{16,8,4,2}_l<s>` on AltiVec. Models /repo/simdpp/detail/insn/move_l.h:39-58, 80-84, 120-124, 162-166, 197-201, 245-256. -/
def move_l (s : Nat) (a : Vec w n) : Option (Vec w n) :=
  if 128 / w < s then none else onBytes2 (fun x z => sldBi (s * (w / 8)) x z) a (Vec.splat 0)

/-- `i_move{16,8,4,2}_r<s>` on AltiVec. Models /repo/simdpp/detail/insn/move_r.h:26-44 and the wider overloads. -/
def move_r (s : Nat) (a : Vec w n) : Option (Vec w n) :=
  if 128 / w < s then none else onBytes2 (fun x z => sldBi (16 - s * (w / 8)) z x) a (Vec.splat 0)

/-- `i_align{16,8,4,2}<s>` on AltiVec.
Models /repo/simdpp/detail/insn/align.h:60, 172, 230-231, 317, 391-392. -/
def align (s : Nat) (lower upper : Vec w n) : Option (Vec w n) :=
  if 128 / w < s then none else onBytes2 (fun x y => sldBi (s * (w / 8)) x y) lower upper

/-- `vec_perm(a, b, mask)`: the low five bits of each mask byte choose a byte of `a:b`. -/
def perm (a b mask : Vec 8 16) : Vec 8 16 := fun i =>
  if (mask i).toNat % 32 < 16 then a.at_ ((mask i).toNat % 32) else b.at_ ((mask i).toNat % 32 - 16)

/-- `mask = make_shuffle_bytes16_mask<s...>(mask); return shuffle_bytes16(a, b, mask);` with `u` selectors of elements of `q`
bytes. Models /repo/simdpp/core/make_shuffle_bytes_mask.h (ten overloads), /repo/simdpp/detail/insn/shuffle_bytes16.h:82-85. -/
def maskShuffle (q u : Nat) (s : Nat → Nat) (a b : Vec w n) : Option (Vec w n) :=
  (makeShuffleMask q u (fun p => (s p : Int))).map fun M => recast w n (perm (recast 8 16 a) (recast 8 16 b) (maskVec16 16 M))

/-- `vec_pack(a, b)`: the lanes of `a` and then those of `b`, each truncated. -/
def vpack (a b : Vec v m) : Vec w n := fun i => if i.val < m then (a.at_ i.val).setWidth w else (b.at_ (i.val - m)).setWidth w

/-- `i_unzip16_lo`, `i_unzip8_lo`, `i_unzip4_lo`. Models /repo/simdpp/detail/insn/unzip_lo.h:43-47, 118-121, 177-179. -/
def unzip_lo (a b : Vec w n) : Option (Vec w n) := maskShuffle (w / 8) (128 / w) (fun p => 2 * p) a b

/-- `i_unzip16_hi`, `i_unzip8_hi` pack the wider lanes, `i_unzip4_hi` is `shuffle2<1,3,1,3>`, which is
`shuffle4x2<1,3,5,7>`. Models /repo/simdpp/detail/insn/unzip_hi.h:38-41, 96-98, 143-145, 195. -/
def unzip_hi (a b : Vec w n) : Option (Vec w n) :=
  if w = 32 then maskShuffle 4 4 (fun p => 2 * p + 1) a b
  else some (vpack (recast (2 * w) (n / 2) a) (recast (2 * w) (n / 2) b))

/-! ## Conversions -/

/-- `combine(x, y)`: the lanes of two registers in order. -/
def cat {k : Nat} (x y : Vec w m) : Vec w k := fun i => if i.val < m then x.at_ i.val else y.at_ (i.val - m)

/-- `i_to_uint16(uint8<16>)`. Models /repo/simdpp/detail/insn/conv_extend_to_int16.h:53-57. -/
def to_uint16 (a : Vec 8 16) : Vec 16 16 :=
  cat (recast 16 8 (Hw.mergeh (Vec.splat 0) a)) (recast 16 8 (Hw.mergel (Vec.splat 0) a))

/-- `i_to_uint32(uint16<8>)`. Models /repo/simdpp/detail/insn/conv_extend_to_int32.h:53-58. -/
def to_uint32 (a : Vec 16 8) : Vec 32 8 :=
  cat (recast 32 4 (Hw.mergeh (Vec.splat 0) a)) (recast 32 4 (Hw.mergel (Vec.splat 0) a))

/-- `i_to_uint64(uint32<4>)` on VSX 2.07: the branch does not test the byte order.
Models /repo/simdpp/detail/insn/conv_extend_to_int64.h:46-48. -/
def to_uint64 (a : Vec 32 4) : Vec 64 4 :=
  cat (recast 64 2 (Hw.mergeh a (Vec.splat 0))) (recast 64 2 (Hw.mergel a (Vec.splat 0)))

/-- `i_to_int64(int32<4>)` on VSX 2.07. Models /repo/simdpp/detail/insn/conv_extend_to_int64.h:398-403. -/
def to_int64 (a : Vec 32 4) : Vec 64 4 :=
  let sign : Vec 32 4 := a.map (fun x => x.sshiftRight 31)
  cat (recast 64 2 (Hw.mergeh a sign)) (recast 64 2 (Hw.mergel a sign))

/-- `i_to_uint32(uint64<4>)`: `vsx` is VSX 2.07, else plain AltiVec, where the 64-bit vector is an array in memory.
Models /repo/simdpp/detail/insn/conv_shrink_to_int32.h:48-54. -/
def shrink64 (vsx : Bool) (x y : Vec 64 2) : Option (Vec 32 4) :=
  if vsx then some (vpack x y) else unzip_hi (recast 32 4 x) (recast 32 4 y)

/-- `xvcvspdp`: words 0 and 2 (big-endian numbers), converted. -/
def xvcvspdp (a : Vec 32 4) : Vec 64 2 := fun i => Fp.conv 64 (a.at_ (2 * i.val))

/-- `xvcvdpsp`: the results are in words 0 and 2; words 1 and 3 are undefined. -/
def xvcvdpsp (u : Vec 32 4) (a : Vec 64 2) : Vec 32 4 := fun i =>
  if i.val % 2 = 0 then Fp.conv 32 (a.at_ (i.val / 2)) else u i

/-- `i_to_float64(float32<4>)` on VSX. Models /repo/simdpp/detail/insn/conv_any_to_float64.h:47-59. -/
def f32_f64 (a : Vec 32 4) : Vec 64 4 :=
  cat (xvcvspdp (Hw.mergeh a (Vec.splat 0))) (xvcvspdp (Hw.mergel a (Vec.splat 0)))

/-- `i_to_float32(float64<4>)` on VSX; `u1`, `u2` are what the instruction leaves in the undefined words.
Models /repo/simdpp/detail/insn/conv_any_to_float32.h:48-54. -/
def f64_f32 (u1 u2 : Vec 32 4) (x y : Vec 64 2) : Option (Vec 32 4) :=
  maskShuffle 4 4 (fun p => 2 * p) (xvcvdpsp u1 x) (xvcvdpsp u2 y)

/-- `i_to_int32(float64<4>)`, `i_to_uint32(float64<4>)` on VSX: 64-bit conversions, then `unzip4_lo` whatever the byte order.
Models /repo/simdpp/detail/insn/conv_float_to_int32.h:229-233, 330-335. -/
def f64_i32 (sg : Bool) (x y : Vec 64 2) : Option (Vec 32 4) :=
  unzip_lo (recast 32 4 (x.map (Hw.fcvtz sg 64) : Vec 64 2)) (recast 32 4 (y.map (Hw.fcvtz sg 64) : Vec 64 2))

/-- `i_to_float64(int32<4>)`, `i_to_float64(uint32<4>)` on VSX: 2.06 merges `a` with the sign or with zero as 2.07 does.
Models /repo/simdpp/detail/insn/conv_any_to_float64.h:152-167, 268-283. -/
def i32_f64 (sg : Bool) (a : Vec 32 4) : Vec 64 4 :=
  Vec.map (Hw.i2f sg 64) (if sg then to_int64 a else to_uint64 a)

/-! ## Multiplication -/

/-- `i_mull(int16<8>)`, `i_mull(uint16<8>)`. Models /repo/simdpp/detail/insn/i_mull.h:73-76, 142-145. -/
def mull16 (sg : Bool) (a b : Vec 16 8) : Vec 32 8 :=
  let lo : Vec 32 4 := Hw.vmul_eo 0 sg 32 a b
  let hi : Vec 32 4 := Hw.vmul_eo 1 sg 32 a b
  cat (Hw.mergeh lo hi) (Hw.mergel lo hi)

/-- `i_mull(int32<4>)`, `i_mull(uint32<4>)` on VSX 2.07: `vmulesw`, `vmulosw` number the lanes from the left.
Models /repo/simdpp/detail/insn/i_mull.h:219-236, 299-316. -/
def mull32 (sg : Bool) (a b : Vec 32 4) : Vec 64 4 :=
  let lo : Vec 64 2 := Hw.vmul_eo 0 sg 64 a b
  let hi : Vec 64 2 := Hw.vmul_eo 1 sg 64 a b
  cat (Hw.mergeh lo hi) (Hw.mergel lo hi)

/-- `i_mul_hi(int16<8>)`, `i_mul_hi(uint16<8>)`: `int16<16> ab = mull(a, b); unzip8_lo(ab.vec<0>(), ab.vec<1>())`.
Models /repo/simdpp/detail/insn/i_mul_hi.h:42-45, 87-90. -/
def mul_hi (sg : Bool) (a b : Vec 16 8) : Option (Vec 16 8) :=
  unzip_lo (recast 16 8 (Hw.part 4 0 (mull16 sg a b) : Vec 32 4)) (recast 16 8 (Hw.part 4 1 (mull16 sg a b) : Vec 32 4))

/-- `i_mul_lo(uint32<4>)` on AltiVec without VSX 2.07. Models /repo/simdpp/detail/insn/i_mul_lo.h:100-107, 117-119. -/
def mul_lo (a b : Vec 32 4) : Option (Vec 32 4) := do
  let ra : Vec 16 8 := recast 16 8 a
  let rb : Vec 16 8 := recast 16 8 b
  let sa ← move_r 1 ra
  let sb ← move_r 1 rb
  let l_ab : Vec 32 4 := Hw.vmul_eo 1 false 32 ra rb
  let h_ab : Vec 32 4 := Hw.vmul_eo 1 false 32 ra sb
  let h_ba : Vec 32 4 := Hw.vmul_eo 1 false 32 sa rb
  some (fun i => ((h_ab i + h_ba i) <<< 16) + l_ab i)

/-! ## One bit per lane -/

/-- `extract<7>(uint16x8(s))` -/
def low3 (s : Vec 32 4) : BitVec 16 := (recast 16 8 s : Vec 16 8).at_ 7

/-- `uint8<16>`. Models /repo/simdpp/detail/insn/extract_bits.h:54-64. -/
def extract_any8 (a : Vec 8 16) : BitVec 16 :=
  let a : Vec 8 16 := fun i => a i &&& (pows 8 : Vec 8 16) i
  let s : Vec 32 4 := Hw.sum4s false a (Vec.splat 0)
  low3 (Hw.sums (Hw.sl_mod s (cyc [0, 0, 8, 8])) (Vec.splat 0))

/-- `uint16<8>`. Models /repo/simdpp/detail/insn/extract_bits.h:117-125. -/
def extract_any16 (a : Vec 16 8) : BitVec 8 :=
  let a : Vec 16 8 := fun i => a i &&& (pows 8 : Vec 16 8) i
  let s : Vec 32 4 := Hw.sum4s false (recast 8 16 a : Vec 8 16) (Vec.splat 0)
  (low3 (Hw.sums s (Vec.splat 0))).setWidth 8

/-- `uint32<4>`. Models /repo/simdpp/detail/insn/extract_bits.h:174-181. -/
def extract_any32 (a : Vec 32 4) : BitVec 8 :=
  let a : Vec 32 4 := fun i => a i &&& (pows 4 : Vec 32 4) i
  (low3 (Hw.sums a (Vec.splat 0))).setWidth 8

/-- `uint64<2>` on VSX 2.07. Models /repo/simdpp/detail/insn/extract_bits.h:227-234. -/
def extract_any64 (a : Vec 64 2) : BitVec 8 :=
  let m : Vec 32 4 := fun i => (recast 32 4 a : Vec 32 4) i &&& (cyc [1, 0, 2, 0] : Vec 32 4) i
  (low3 (Hw.sums m (Vec.splat 0))).setWidth 8

/-! ## 64-bit shuffles on VSX -/

/-- `SIMDPP_VSX_SHUFFLE_MASK_2x2`, big-endian. Models /repo/simdpp/detail/shuffle/shuffle_mask.h:18. -/
def vsxMask (x0 x1 : Nat) : Nat := (x1 <<< 1 ||| x0) &&& 0x3

/-- `vec_xxpermdi(x, y, m)`: doubleword `m >> 1` of `x`, doubleword `m & 1` of `y`. -/
def xxpermdi (x y : Vec 64 2) (m : Nat) : Vec 64 2 := fun i => if i.val = 0 then x.at_ (m / 2 % 2) else y.at_ (m % 2)

/-- `i_permute2<s0,s1>`. Models /repo/simdpp/detail/insn/permute2.h:63-65, 104-106. -/
def permute2 (s0 s1 : Nat) (a : Vec 64 2) : Option (Vec 64 2) :=
  if s0 < 2 ∧ s1 < 2 then some (xxpermdi a a (vsxMask s0 s1)) else none

/-- `i_shuffle2x2<s0,s1>` on 64-bit lanes. Models /repo/simdpp/detail/insn/shuffle2x2.h:168-178, 415-425. -/
def shuffle2x2 (s0 s1 : Nat) (a b : Vec 64 2) : Option (Vec 64 2) :=
  if s0 < 4 ∧ s1 < 4 then
    if s0 < 2 ∧ s1 < 2 then some (xxpermdi a a (vsxMask s0 s1))
    else if s0 ≥ 2 ∧ s1 ≥ 2 then some (xxpermdi b b (vsxMask (s0 - 2) (s1 - 2)))
    else if s0 < 2 then some (xxpermdi a b (vsxMask s0 (s1 - 2)))
    else some (xxpermdi b a (vsxMask s1 (s0 - 2)))
  else none

end Simdpp.BE
