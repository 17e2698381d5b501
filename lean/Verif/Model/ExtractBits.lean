import Verif.Model.ReduceAdd
import Verif.Model.ShiftV

/-!
# extract_bits_any, extract_bits

`simdpp/detail/insn/extract_bits.h` and `simdpp/core/extract_bits.h`. The functions exist for vectors of 16 and 32 bytes.
The shifts and ors of the portable branches are on values below 2^17 promoted to `int` and are written on bit vectors; `hi << 16` of a
`uint16_t` is taken with the C++14 rule. `_mm_movepi16_mask`, `_mm256_movepi16_mask`, `_mm256_movepi32_mask` and
`_mm256_movepi64_mask` are instructions of AVX512VL: without it these branches do not compile.
-/

namespace Simdpp

variable {w n m : Nat}

namespace Hw
/-- Bit `i` is `f i` for `i < n`. -/
def packBits (W : Nat) (f : Nat → Bool) : Nat → BitVec W
  | 0 => 0
  | n + 1 => packBits W f n ||| if f n then 1#W <<< n else 0
/-- The sign bits (`_mm*_movemask_epi8/ps/pd`, `_mm*_movepi16/32/64_mask`). -/
def movemask (W : Nat) (a : Vec w n) : BitVec W := packBits W (fun i => (a.at_ i).msb) n
/-- `vec_sums(a, b)`: the last lane is `b[3]` plus the sum of the lanes of `a`, saturated; the others are zero. -/
def sums (a b : Vec 32 4) : Vec 32 4 := fun i =>
  if i.val = 3 then
    BitVec.ofInt 32 (Spec.clamp true 32 ((a 0).toInt + (a 1).toInt + (a 2).toInt + (a 3).toInt + (b 3).toInt))
  else 0
/-- `vec_rl`: rotate each lane left by its count modulo `w`. -/
def rl_mod (a k : Vec w n) : Vec w n := fun i => (a i).rotateLeft ((k i).toNat % w)
/-- `vzip_u8(a, b).val[0]` -/
def vzip0_u8 (a b : Vec 8 8) : Vec 8 8 := fun i => if i.val % 2 = 0 then a.at_ (i.val / 2) else b.at_ (i.val / 2)
end Hw

namespace Null
/-- `r = 0; for (i = 0; i < len; i++) { x = (a.el(i) >> id) & 1; r = (r >> 1) | (x << (len-1)); }`.
Models /repo/simdpp/detail/insn/extract_bits.h:34-40, 97-103, 159-165, 213-219, 272-278. -/
def extract_loop (W : Nat) (id : Nat) (a : Vec w n) : Nat → BitVec W
  | 0 => 0
  | i + 1 => (extract_loop W id a i >>> 1) ||| ((((a.at_ i >>> id) &&& 1#w).setWidth W) <<< (n - 1))
end Null

/-- `make_uint(1, 2, 4, ..)` -/
def pows (k : Nat) : Vec w n := cyc ((List.range k).map (2 ^ ·))

/-- `uint8<16>`. Models /repo/simdpp/detail/insn/extract_bits.h:30-80. -/
def extract_any8 (c : Cfg) (a : Vec 8 16) : Option (BitVec 16) :=
  if c.null then some (Null.extract_loop 16 0 a 16)
  else if c.sse2 then some (Hw.movemask 16 a)
  else if c.neon then do
    let a ← i_bit_and c .int .r128 a (pows 8)
    let a16 : Vec 16 8 := Hw.vpaddl a
    let a32 : Vec 32 4 := Hw.vpaddl a16
    let a64 : Vec 64 2 := Hw.vpaddl a32
    let a8 : Vec 8 16 := a64.recast 8 16
    let r := Hw.vzip0_u8 (Hw.half false a8) (Hw.half true a8)
    some ((r.recast 16 4 : Vec 16 4).at_ 0)
  else if c.altivec then do
    let a ← i_bit_and c .int .r128 a (pows 8)
    let s : Vec 32 4 := Hw.sum4s false a (Vec.splat 0)
    let s := Hw.sl_mod s (cyc [0, 0, 8, 8])
    let s := Hw.sums s (Vec.splat 0)
    i_extract c .int false .r128 6 (s.recast 16 8)
  else if c.msa then do
    let a ← i_bit_and c .int .r128 a (pows 8)
    let a16 : Vec 16 8 := Hw.hadd2 false 16 a a
    let a32 : Vec 32 4 := Hw.hadd2 false 32 a16 a16
    let a64 : Vec 64 2 := Hw.hadd2 false 64 a32 a32
    let a : Vec 8 16 := a64.recast 8 16
    let b ← i_move_l c .int .r128 7 a
    let a ← i_bit_or c .int .r128 a b
    i_extract c .int false .r128 0 (a.recast 16 8)
  else none

/-- `uint8<32>`. Models /repo/simdpp/detail/insn/extract_bits.h:82-92. -/
def extract_any8x (c : Cfg) (a : Vec 8 32) : Option (BitVec 32) :=
  if c.avx2 then some (Hw.movemask 32 a)
  else do
    let lo ← extract_any8 c (Hw.part 16 0 a)
    let hi ← extract_any8 c (Hw.part 16 1 a)
    some (lo.setWidth 32 ||| hi.setWidth 32 <<< 16)

/-- `uint16<8>`. Models /repo/simdpp/detail/insn/extract_bits.h:94-137. -/
def extract_any16 (c : Cfg) (a : Vec 16 8) : Option (BitVec 8) :=
  if c.null then some (Null.extract_loop 8 0 a 8)
  else if c.avx512bw then if c.avx512vl then some (Hw.movemask 8 a) else none
  else if c.sse2 then do
    let b ← i_unzip_lo c .int .r128 (a.recast 8 16) (Vec.splat 0)
    some ((Hw.movemask 16 b).setWidth 8)
  else if c.neon then do
    let a ← i_bit_and c .int .r128 a (pows 8)
    let a32 : Vec 32 4 := Hw.vpaddl a
    let r2 : Vec 64 2 := Hw.vpaddl a32
    some ((r2.at_ 0 + r2.at_ 1).setWidth 8)
  else if c.altivec then do
    let a ← i_bit_and c .int .r128 a (pows 8)
    let s : Vec 32 4 := Hw.sum4s false (a.recast 8 16 : Vec 8 16) (Vec.splat 0)
    let s := Hw.sums s (Vec.splat 0)
    let r ← i_extract c .int false .r128 6 (s.recast 16 8 : Vec 16 8)
    some (r.setWidth 8)
  else if c.msa then do
    let a ← i_bit_and c .int .r128 a (pows 8)
    let a32 : Vec 32 4 := Hw.hadd2 false 32 a a
    let a64 : Vec 64 2 := Hw.hadd2 false 64 a32 a32
    let a : Vec 16 8 := a64.recast 16 8
    let b ← i_move_l c .int .r128 4 a
    let a ← i_bit_or c .int .r128 a b
    let r ← i_extract c .int false .r128 0 a
    some (r.setWidth 8)
  else none

/-- `uint16<16>`. Models /repo/simdpp/detail/insn/extract_bits.h:139-153. -/
def extract_any16x (c : Cfg) (a : Vec 16 16) : Option (BitVec 16) :=
  if c.avx512bw then if c.avx512vl then some (Hw.movemask 16 a) else none
  else if c.avx2 then do
    let b ← i_unzip_lo c .int .r256 (a.recast 8 32) (Vec.splat 0)
    let q : Vec 8 32 := (Hw.permute4x64 (b.recast 64 4 : Vec 64 4) 0x08).recast 8 32
    some (Hw.movemask 16 (Hw.part 16 0 q))
  else do
    let lo ← extract_any16 c (Hw.part 8 0 a)
    let hi ← extract_any16 c (Hw.part 8 1 a)
    some (lo.setWidth 16 ||| hi.setWidth 16 <<< 8)

/-- `uint32<4>`. Models /repo/simdpp/detail/insn/extract_bits.h:155-192. -/
def extract_any32 (c : Cfg) (a : Vec 32 4) : Option (BitVec 8) :=
  if c.null then some (Null.extract_loop 8 0 a 4)
  else if c.sse2 then some (Hw.movemask 8 a)
  else if c.neon then do
    let a ← i_bit_and c .int .r128 a (pows 4)
    let r2 : Vec 64 2 := Hw.vpaddl a
    some ((r2.at_ 0 + r2.at_ 1).setWidth 8)
  else if c.altivec then do
    let a ← i_bit_and c .int .r128 a (pows 4)
    let s := Hw.sums a (Vec.splat 0)
    let r ← i_extract c .int false .r128 6 (s.recast 16 8 : Vec 16 8)
    some (r.setWidth 8)
  else if c.msa then do
    let a ← i_bit_and c .int .r128 a (pows 4)
    let a64 : Vec 64 2 := Hw.hadd2 false 64 a a
    let a : Vec 32 4 := a64.recast 32 4
    let b ← i_move_l c .int .r128 2 a
    let a ← i_bit_or c .int .r128 a b
    let r ← i_extract c .int false .r128 0 a
    some (r.setWidth 8)
  else none

/-- `uint32<8>`. Models /repo/simdpp/detail/insn/extract_bits.h:194-207. -/
def extract_any32x (c : Cfg) (a : Vec 32 8) : Option (BitVec 8) :=
  if c.avx512dq then if c.avx512vl then some (Hw.movemask 8 a) else none
  else if c.avx2 then some (Hw.movemask 8 a)
  else do
    let lo ← extract_any32 c (Hw.part 4 0 a)
    let hi ← extract_any32 c (Hw.part 4 1 a)
    some (lo ||| hi <<< 4)

/-- `uint64<2>`. Models /repo/simdpp/detail/insn/extract_bits.h:209-245. -/
def extract_any64 (c : Cfg) (a : Vec 64 2) : Option (BitVec 8) :=
  if c.null ∨ (c.altivec ∧ ¬ c.vsx207) then some (Null.extract_loop 8 0 a 2)
  else if c.sse2 then some (Hw.movemask 8 a)
  else if c.neon then do
    let a ← i_bit_and c .int .r128 a (pows 2)
    some ((a.at_ 0 + a.at_ 1).setWidth 8)
  else if c.altivec then do
    let m ← i_bit_and c .int .r128 (a.recast 32 4 : Vec 32 4) (cyc [1, 0, 2, 0])
    let s := Hw.sums m (Vec.splat 0)
    let r ← i_extract c .int false .r128 6 (s.recast 16 8 : Vec 16 8)
    some (r.setWidth 8)
  else if c.msa then do
    let b ← i_bit_and c .int .r128 (a.recast 32 4 : Vec 32 4) (cyc [1, 0, 2, 0])
    let b64 : Vec 64 2 := Hw.hadd2 false 64 b b
    let b : Vec 32 4 := b64.recast 32 4
    let d ← i_move_l c .int .r128 2 b
    let b ← i_bit_or c .int .r128 b d
    let r ← i_extract c .int false .r128 0 b
    some (r.setWidth 8)
  else none

/-- `uint64<4>`. Models /repo/simdpp/detail/insn/extract_bits.h:247-265. -/
def extract_any64x (c : Cfg) (a : Vec 64 4) : Option (BitVec 8) :=
  if c.null ∨ (c.altivec ∧ ¬ c.vsx207) then
    some (((a.at_ 0 &&& 1) ||| (a.at_ 1 &&& 2) ||| (a.at_ 2 &&& 4) ||| (a.at_ 3 &&& 8)).setWidth 8)
  else if c.avx512dq then if c.avx512vl then some (Hw.movemask 8 a) else none
  else if c.avx2 then some (Hw.movemask 8 a)
  else do
    let lo ← extract_any64 c (Hw.part 2 0 a)
    let hi ← extract_any64 c (Hw.part 2 1 a)
    some (lo ||| hi <<< 2)

/-- `extract_bits_any`: the returned `uint8_t`, `uint16_t` or `uint32_t`. There is no overload for other vector types.
Models /repo/simdpp/core/extract_bits.h:36-75. -/
def extract_bits_any (c : Cfg) (w N : Nat) (a : Vec w N) : Option Nat :=
  if w = 8 ∧ N = 16 then (extract_any8 c fun i => (a.at_ i).setWidth 8).map (·.toNat)
  else if w = 8 ∧ N = 32 then (extract_any8x c fun i => (a.at_ i).setWidth 8).map (·.toNat)
  else if w = 16 ∧ N = 8 then (extract_any16 c fun i => (a.at_ i).setWidth 16).map (·.toNat)
  else if w = 16 ∧ N = 16 then (extract_any16x c fun i => (a.at_ i).setWidth 16).map (·.toNat)
  else if w = 32 ∧ N = 4 then (extract_any32 c fun i => (a.at_ i).setWidth 32).map (·.toNat)
  else if w = 32 ∧ N = 8 then (extract_any32x c fun i => (a.at_ i).setWidth 32).map (·.toNat)
  else if w = 64 ∧ N = 2 then (extract_any64 c fun i => (a.at_ i).setWidth 64).map (·.toNat)
  else if w = 64 ∧ N = 4 then (extract_any64x c fun i => (a.at_ i).setWidth 64).map (·.toNat)
  else none

/-- `make_int(0-int(id), 1-int(id), .., 7-int(id))` in bytes. -/
def idShifts (id : Nat) : Vec 8 n := fun i => BitVec.ofInt 8 ((i.val % 8 : Nat) - (id : Int))

/-- `extract_bits<id>(uint8<16>)`; `id < 8` is a static assertion.
Models /repo/simdpp/detail/insn/extract_bits.h:267-302, /repo/simdpp/core/extract_bits.h:85-90. -/
def extract_bits (c : Cfg) (id : Nat) (a : Vec 8 16) : Option (BitVec 16) :=
  if ¬ id < 8 then none
  else if c.null then some (Null.extract_loop 16 id a 16)
  else if c.sse2 then do
    let a16 ← shift_l_imm c .r128 (7 - id) (a.recast 16 8 : Vec 16 8)
    extract_any8 c (a16.recast 8 16)
  else if c.neon then extract_any8 c (Hw.vshl_u a (idShifts id))
  else if c.altivec then extract_any8 c (Hw.rl_mod a (idShifts id))
  else if c.msa then do
    let a_l := Hw.sl_mod a (idShifts id)
    let shifts ← i_isub c .r128 (Vec.splat 0) (idShifts id)
    let a_r := Hw.sr_mod a shifts
    let a ← i_bit_or c .int .r128 a_l a_r
    extract_any8 c a
  else none

/-- `extract_bits<id>(uint8<32>)`. Models /repo/simdpp/detail/insn/extract_bits.h:304-316, /repo/simdpp/core/extract_bits.h:91-96. -/
def extract_bits32 (c : Cfg) (id : Nat) (a : Vec 8 32) : Option (BitVec 32) :=
  if ¬ id < 8 then none
  else if c.avx2 then do
    let a16 ← shift_l_imm c .r256 (7 - id) (a.recast 16 16 : Vec 16 16)
    extract_any8x c (a16.recast 8 32)
  else do
    let lo ← extract_bits c id (Hw.part 16 0 a)
    let hi ← extract_bits c id (Hw.part 16 1 a)
    some (lo.setWidth 32 ||| hi.setWidth 32 <<< 16)

end Simdpp
