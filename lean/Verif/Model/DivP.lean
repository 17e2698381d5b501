import Verif.Model.Compare
import Verif.Model.Arith
import Verif.Model.Shift
import Verif.Model.Null

/-!
# Reduced-precision division

`simdpp/core/i_div_p.h`: only 128-bit vectors of 8-bit and 16-bit unsigned lanes.
-/

namespace Simdpp


variable {w n : Nat}

/-- A shift done on 16-bit lanes of a vector of bytes: `uint8x16 r = shift((uint16x8) a)`. -/
def via16 (f : Vec 16 (n / 2) → Option (Vec 16 (n / 2))) (a : Vec 8 n) : Option (Vec 8 n) :=
  (f (a.recast 16 (n / 2))).map (·.recast 8 n)

/-- `shift_l<1>` on the 16-bit lanes. Models /repo/simdpp/core/i_div_p.h:58, 105. -/
def divShl1 (c : Cfg) (a : Vec w n) : Option (Vec w n) :=
  if h : w = 8 then (h ▸ fun (a : Vec 8 n) => via16 (shift_l_imm c .r128 1) a : Vec w n → Option (Vec w n)) a
  else shift_l_imm c .r128 1 a

/-- `shift_r(.., bit)` on the 16-bit lanes. Models /repo/simdpp/core/i_div_p.h:61, 108. -/
def divShr (c : Cfg) (bit : Nat) (a : Vec w n) : Option (Vec w n) :=
  if h : w = 8 then (h ▸ fun (a : Vec 8 n) => via16 (fun x => i_shift_r c false .r128 x bit) a : Vec w n → Option (Vec w n)) a
  else i_shift_r c false .r128 a bit

/-- `shift_r<1>` on the 16-bit lanes. Models /repo/simdpp/core/i_div_p.h:72, 119. -/
def divShr1 (c : Cfg) (a : Vec w n) : Option (Vec w n) :=
  if h : w = 8 then (h ▸ fun (a : Vec 8 n) => via16 (shift_r_imm c false .r128 1) a : Vec w n → Option (Vec w n)) a
  else shift_r_imm c false .r128 1 a

/-- The loop `for (unsigned i = P; i > 0; i--)` with its variables `r`, `q` and `bit_mask`.
Models /repo/simdpp/core/i_div_p.h:54-74, 102-121. -/
def divLoop (c : Cfg) (num den : Vec w n) : Nat → Vec w n → Vec w n → Vec w n → Option (Vec w n)
  | 0, _, q, _ => some q
  | bit + 1, r, q, bit_mask => do
    let r ← divShl1 c r
    let n_bit ← i_bit_and c .int .r128 num bit_mask
    let n_bit ← divShr c bit n_bit
    let r ← i_bit_or c .int .r128 r n_bit
    let cmp ← i_cmp_lt c false .r128 r den
    let csub ← i_bit_andnot c .int .r128 den cmp.unmask
    let cbit ← i_bit_andnot c .int .r128 bit_mask cmp.unmask
    let r ← i_isub c .r128 r csub
    let q ← i_bit_or c .int .r128 q cbit
    let bit_mask ← divShr1 c bit_mask
    divLoop c num den bit r q bit_mask

/-- `div_p<P>(uint8x16, uint8x16)`, `div_p<P>(uint16x8, uint16x8)`. `1 << (P-1)` is undefined for `P = 0`; larger `P`
than the lane width is rejected by a `static_assert`, except by the portable code.
Models /repo/simdpp/core/i_div_p.h:43-125. -/
def div_p (c : Cfg) (P : Nat) (num den : Vec w n) : Option (Vec w n) :=
  if c.null then Null.div_p P false num den
  else if 1 ≤ P ∧ P ≤ w then divLoop c num den P (Vec.splat 0) (Vec.splat 0) (Vec.splat (BitVec.twoPow w (P - 1)))
  else none

end Simdpp
