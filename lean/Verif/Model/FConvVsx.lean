import Verif.Model.FConv
import Verif.Model.ShufMask
import Verif.Model.Bytes16

/-!
# `double` to `float` on little-endian VSX

The instruction leaves half of its result undefined, so this branch is separate from `FConv.lean`.
-/

namespace Simdpp
open Spec

/-- `__builtin_vsx_xvcvdpsp` on a little-endian target. The instruction puts the results in the upper words of the doublewords (words 0 and 2 in
its own numbering, which are lanes 1 and 3 here; the opposite numbering is `BE.xvcvdpsp`) and leaves the lower words undefined: `u a`. -/
def Hw.xvcvdpspLE (u : Vec 64 2 → Vec 32 4) (a : Vec 64 2) : Vec 32 4 := fun i =>
  if i.val % 2 = 1 then Fp.conv 32 (a.at_ (i.val / 2)) else u a i

/-- `i_to_float32(float64<4>)` on VSX. Models /repo/simdpp/detail/insn/conv_any_to_float32.h:48-54. -/
def f64f32Vsx (c : Cfg) (u : Vec 64 2 → Vec 32 4) (a : Vec 64 4) : Option (Vec 32 4) := do
  let lo := Hw.xvcvdpspLE u (Hw.part 2 0 a)
  let hi := Hw.xvcvdpspLE u (Hw.part 2 1 a)
  let M ← makeShuffleMask 4 4 (fun p => 2 * p)
  let res ← bytes16_wide3 (w := 32) (k := 1) (l := 16) (i_shuffle_bytes16 c .r128) 4 (fun _ => lo) (fun _ => hi)
    (fun _ => (maskVec16 16 M).recast 32 4) (fun _ => Vec.splat 0)
  some (res 0)

end Simdpp
