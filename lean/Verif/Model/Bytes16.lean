import Verif.Model.ShufIntrin
import Verif.Model.Shift
import Verif.Model.Blend
import Verif.Model.Compare
import Verif.Model.Array

/-!
# Byte permutations with run-time masks

`simdpp/detail/insn/permute_bytes16.h`, `permute_zbytes16.h`, `shuffle_bytes16.h`,
`shuffle_zbytes16.h`. The work-around for clang 3.6/3.7 in `shuffle_bytes16.h:54-62` is in
`Model/Workaround.lean`.
-/

namespace Simdpp

open Sh

variable {n : Nat}

namespace Null

/-- The portable loop of `i_permute_bytes16`. `mask.el(i)` is promoted to `int`.
Models /repo/simdpp/detail/insn/permute_bytes16.h:27-34. -/
def permute_bytes16 (a mask : Vec 8 n) : Option (Vec 8 n) := lanesM fun i =>
  let j := (mask i).toNat &&& 0x0f
  rd a j

/-- Models /repo/simdpp/detail/insn/permute_zbytes16.h:33-41. -/
def permute_zbytes16 (a mask : Vec 8 n) : Option (Vec 8 n) := lanesM fun i => do
  let j := (mask i).toNat &&& 0x0f
  let zero := (mask i).toNat &&& 0x80 ≠ 0
  if zero then some 0 else rd a j

/-- Models /repo/simdpp/detail/insn/shuffle_bytes16.h:31-39. -/
def shuffle_bytes16 (a b mask : Vec 8 n) : Option (Vec 8 n) := lanesM fun i =>
  let j := (mask i).toNat &&& 0x0f
  let which := (mask i).toNat < 0x10
  if which then rd a j else rd b j

/-- Models /repo/simdpp/detail/insn/shuffle_zbytes16.h:37-46. -/
def shuffle_zbytes16 (a b mask : Vec 8 n) : Option (Vec 8 n) := lanesM fun i =>
  let j := (mask i).toNat &&& 0x0f
  let which := (mask i).toNat < 0x10
  let zero := (mask i).toNat &&& 0x80 ≠ 0
  if zero then some 0 else if which then rd a j else rd b j

end Null

/-- `i_permute_bytes16(uint8<N>)`. Models /repo/simdpp/detail/insn/permute_bytes16.h:24-68. -/
def i_permute_bytes16 (c : Cfg) (r : Reg) (a mask : Vec 8 n) : Option (Vec 8 n) :=
  match r with
  | .r128 =>
    if c.null then Null.permute_bytes16 a mask
    else if c.ssse3 then some (Hw.pshufb a mask)
    else if c.neon32 then some (Hw.tbl1 a mask)
    else if c.neon64 then some (Hw.tbl1 a mask)
    else if c.altivec then some (Hw.vperm a a mask)
    else if c.msa then some (Hw.vshf_b mask a a)
    else none
  | .r256 => if c.avx2 then some (Hw.pshufb a mask) else none
  | .r512 => if c.avx512bw then some (Hw.pshufb a mask) else none

/-- `i_permute_zbytes16(uint8<N>)`. Models /repo/simdpp/detail/insn/permute_zbytes16.h:30-77. -/
def i_permute_zbytes16 (c : Cfg) (r : Reg) (a mask : Vec 8 n) : Option (Vec 8 n) :=
  match r with
  | .r128 =>
    if c.null then Null.permute_zbytes16 a mask
    else if c.ssse3 ∨ c.neon then i_permute_bytes16 c .r128 a mask
    else if c.altivec then do
      let zero_mask ← shift_r_imm c true .r128 7 mask
      let a0 ← i_permute_bytes16 c .r128 a mask
      i_bit_andnot c .int .r128 a0 zero_mask
    else if c.msa then some (Hw.vshf_b mask a a)
    else none
  | .r256 => if c.avx2 then some (Hw.pshufb a mask) else none
  | .r512 => if c.avx512bw then some (Hw.pshufb a mask) else none

/-- `_mm*_slli_epi16(mask, 3)` on a byte vector: a shift of 16-bit lanes. -/
def slli16_3 (m : Vec 8 n) : Vec 8 n := (Hw.sll (m.recast 16 (n / 2)) 3).recast 8 n

/-- `i_shuffle_bytes16(uint8<N>)`. Models /repo/simdpp/detail/insn/shuffle_bytes16.h:28-122. -/
def i_shuffle_bytes16 (c : Cfg) (r : Reg) (a b mask : Vec 8 n) : Option (Vec 8 n) :=
  match r with
  | .r128 =>
    if c.null then Null.shuffle_bytes16 a b mask
    else if c.xop then Hw.vpperm a b mask
    else if c.avx then
      some (Hw.blendv (Hw.pshufb a mask) (Hw.pshufb b mask) (slli16_3 mask))
    else if c.ssse3 then do
      let m1 ← i_iadd c .r128 mask (Vec.splat 0x70)
      let m2 ← i_iadd c .r128 mask (Vec.splat 0xf0)
      i_bit_or c .int .r128 (Hw.pshufb a m1) (Hw.pshufb b m2)
    else if c.neon32 then some (Hw.tbl2 a b mask)
    else if c.neon64 then some (Hw.tbl2 a b mask)
    else if c.altivec then some (Hw.vperm a b mask)
    else if c.msa then some (Hw.vshf_b mask b a)
    else none
  | .r256 =>
    if c.avx2 then some (Hw.blendv (Hw.pshufb a mask) (Hw.pshufb b mask) (slli16_3 mask)) else none
  | .r512 =>
    if c.avx512bw then
      some (Hw.mask_blend (Hw.test_mask mask (Vec.splat 0x10)) (Hw.pshufb a mask) (Hw.pshufb b mask))
    else none

/-- `i_shuffle_zbytes16(uint8<N>)`. Models /repo/simdpp/detail/insn/shuffle_zbytes16.h:34-110. -/
def i_shuffle_zbytes16 (c : Cfg) (r : Reg) (a b mask : Vec 8 n) : Option (Vec 8 n) :=
  match r with
  | .r128 =>
    if c.null then Null.shuffle_zbytes16 a b mask
    else if c.xop then Hw.vpperm a b mask
    else if c.sse41 then
      some (Hw.blendv (Hw.pshufb a mask) (Hw.pshufb b mask) (slli16_3 mask))
    else if c.ssse3 then do
      let m5 ← i_bit_and c .int .r128 mask (Vec.splat 0x1f)
      let select_a ← i_cmp_lt c true .r128 m5 (Vec.splat 0x10)
      i_blend_vm c .int .r128 (Hw.pshufb a mask) (Hw.pshufb b mask) select_a
    else if c.neon then i_shuffle_bytes16 c .r128 a b mask
    else if c.altivec then do
      let zero_mask ← shift_r_imm c true .r128 7 mask
      let a0 ← i_shuffle_bytes16 c .r128 a b mask
      i_bit_andnot c .int .r128 a0 zero_mask
    else if c.msa then some (Hw.vshf_b mask b a)
    else none
  | .r256 =>
    if c.avx2 then some (Hw.blendv (Hw.pshufb a mask) (Hw.pshufb b mask) (slli16_3 mask)) else none
  | .r512 =>
    if c.avx512bw then
      some (Hw.mask_blend (Hw.test_mask mask (Vec.splat 0x10)) (Hw.pshufb a mask) (Hw.pshufb b mask))
    else none

/-- The overloads for wider lanes cast to bytes, apply the byte form to the `K` base vectors and
cast back. `l` is the number of bytes of one base vector.
Models /repo/simdpp/detail/insn/permute_bytes16.h:75-99, permute_zbytes16.h:84-108. -/
def bytes16_wide2 {w k l : Nat} (op : Vec 8 l → Vec 8 l → Option (Vec 8 l)) (m : Nat)
    (a mask : Fin k → Vec w m) (d : Fin k → Vec 8 l) : Option (Fin k → Vec w m) := do
  let res ← Arr.apply2 op (fun i => (a i).recast 8 l) (fun i => (mask i).recast 8 l) 0 d
  some fun i => (res i).recast w m

/-- Models /repo/simdpp/detail/insn/shuffle_bytes16.h:130-154, shuffle_zbytes16.h:118-142. -/
def bytes16_wide3 {w k l : Nat} (op : Vec 8 l → Vec 8 l → Vec 8 l → Option (Vec 8 l)) (m : Nat)
    (a b mask : Fin k → Vec w m) (d : Fin k → Vec 8 l) : Option (Fin k → Vec w m) := do
  let res ← Arr.apply3 op (fun i => (a i).recast 8 l) (fun i => (b i).recast 8 l)
    (fun i => (mask i).recast 8 l) 0 d
  some fun i => (res i).recast w m

end Simdpp
