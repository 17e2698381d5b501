import Verif.Model.ShufProg
import Verif.Model.ShufMask
import Verif.Model.NullShuffle

/-!
# Selector-driven shuffles of 16- and 32-bit lanes

`i_permute4`, `i_permute2`, `i_shuffle4x2`, `i_shuffle2x2` (`simdpp/detail/insn/permute4.h`,
`permute2.h`, `shuffle4x2.h`, `shuffle2x2.h`) and the instruction selection behind them
(`simdpp/detail/shuffle/*.h`). A template instantiation is a straight-line `Prog`.
-/

namespace Simdpp

open Sh

variable {n : Nat}

/-! ## NEON, 16-bit lanes: programs on groups of four (`L = 4`) -/

namespace Neon16

/-- Models /repo/simdpp/detail/shuffle/neon_int16x8.h:38-46. -/
def bcast (k : Nat) (x : Prog) : Prog := .g (fun _ => k) x x
/-- `vbslq` with whole-lane masks. Models /repo/simdpp/detail/shuffle/neon_int16x8.h:52-63. -/
def sel (s0 s1 s2 s3 : Nat) (x y : Prog) : Prog :=
  .g (fun j => if (if j = 0 then s0 else if j = 1 then s1 else if j = 2 then s2 else s3) > 0
    then 4 + j else j) x y
/-- 64-bit left shift by `shift*16`. Models /repo/simdpp/detail/shuffle/neon_int16x8.h:69-73. -/
def mov_r (shift : Nat) (x : Prog) : Prog := .g (fun j => if shift ≤ j then j - shift else 8) x x
/-- 64-bit right shift by `shift*16`. Models /repo/simdpp/detail/shuffle/neon_int16x8.h:75-79. -/
def mov_l (shift : Nat) (x : Prog) : Prog := .g (fun j => if j + shift < 4 then j + shift else 8) x x
/-- `vrev64q_u16`. Models /repo/simdpp/detail/shuffle/neon_int16x8.h:83-86. -/
def rev41 (x : Prog) : Prog := .g (fun j => 3 - j) x x
/-- `vrev64q_u32`. Models /repo/simdpp/detail/shuffle/neon_int16x8.h:90-93. -/
def rev42 (x : Prog) : Prog := .g (fun j => if j < 2 then j + 2 else j - 2) x x
/-- `vrev32q_u16`. Models /repo/simdpp/detail/shuffle/neon_int16x8.h:97-100. -/
def rev21 (x : Prog) : Prog := .g (fun j => if j % 2 = 0 then j + 1 else j - 1) x x
/-- `vtrnq_u16(a, a).val[0]`. Models /repo/simdpp/detail/shuffle/neon_int16x8.h:104-108. -/
def dup_lo (x : Prog) : Prog := .g (fun j => if j % 2 = 0 then j else 4 + (j - 1)) x x
/-- `vtrnq_u16(a, a).val[1]`. Models /repo/simdpp/detail/shuffle/neon_int16x8.h:112-116. -/
def dup_hi (x : Prog) : Prog := .g (fun j => if j % 2 = 0 then j + 1 else 4 + j) x x
/-- Models /repo/simdpp/detail/shuffle/neon_int16x8.h:120-130. -/
def dup2_lo (x : Prog) : Prog := .g (fun j => j % 2) x x
/-- Models /repo/simdpp/detail/shuffle/neon_int16x8.h:134-144. -/
def dup2_hi (x : Prog) : Prog := .g (fun j => 2 + j % 2) x x
/-- `vzip_u16(h, h).val[0]` on both halves. Models /repo/simdpp/detail/shuffle/neon_int16x8.h:148-155. -/
def dup_unpack_lo (x : Prog) : Prog := .g (fun j => if j % 2 = 0 then j / 2 else 4 + j / 2) x x
/-- `vzip_u16(h, h).val[1]` on both halves. Models /repo/simdpp/detail/shuffle/neon_int16x8.h:159-166. -/
def dup_unpack_hi (x : Prog) : Prog := .g (fun j => if j % 2 = 0 then 2 + j / 2 else 6 + j / 2) x x
/-- Models /repo/simdpp/detail/shuffle/neon_int16x8.h:170-197. -/
def swap1 (n1 n2 : Nat) (x : Prog) : Prog :=
  match n1 * 4 + n2 with
  | 0 | 5 | 10 | 15 => x
  | 1 | 4 | 11 | 14 => rev21 x
  | 2 | 8 | 7 | 13 => rev42 x
  | 3 | 12 | 6 | 9 => rev41 x
  | _ => x

/-- The overload table (`none`: the generic template with the table look-up fallback).
Models /repo/simdpp/detail/shuffle/neon_int16x8.h:208-473. -/
def perm4 (s0 s1 s2 s3 : Nat) : Option Prog :=
  match s0, s1, s2, s3 with
  | 0, 0, 0, 0 => some (bcast 0 .a)
  | 0, 0, 0, 1 => some (sel 0 0 0 1 (bcast 0 .a) (swap1 1 3 .a))
  | 0, 0, 0, 2 => some (sel 0 0 0 1 (bcast 0 .a) (swap1 2 3 .a))
  | 0, 0, 0, 3 => some (sel 1 1 1 0 .a (bcast 0 .a))
  | 0, 0, 1, 0 => some (sel 0 0 1 0 (bcast 0 .a) (swap1 1 2 .a))
  | 0, 0, 1, 1 => some (dup_unpack_lo .a)
  | 0, 0, 1, 2 => some (sel 0 1 1 1 .a (mov_r 1 .a))
  | 0, 0, 1, 3 => some (sel 0 1 1 0 .a (mov_r 1 .a))
  | 0, 0, 2, 0 => some (sel 1 1 0 1 .a (bcast 0 .a))
  | 0, 0, 2, 2 => some (dup_lo .a)
  | 0, 0, 2, 3 => some (sel 0 1 0 0 .a (swap1 0 1 .a))
  | 0, 0, 3, 0 => some (sel 0 0 1 0 (bcast 0 .a) (swap1 3 2 .a))
  | 0, 0, 3, 2 => some (sel 0 1 1 1 .a (rev21 .a))
  | 0, 0, 3, 3 => some (sel 0 1 1 0 .a (rev21 .a))
  | 0, 1, 0, 0 => some (sel 1 0 1 1 .a (bcast 0 .a))
  | 0, 1, 0, 1 => some (dup2_lo .a)
  | 0, 1, 0, 3 => some (sel 0 0 1 0 .a (swap1 0 2 .a))
  | 0, 1, 1, 0 => some (sel 0 0 1 1 .a (rev41 .a))
  | 0, 1, 1, 1 => some (sel 0 0 1 1 .a (bcast 1 .a))
  | 0, 1, 1, 2 => some (sel 0 0 1 1 .a (mov_r 1 .a))
  | 0, 1, 1, 3 => some (sel 0 0 1 0 .a (swap1 1 2 .a))
  | 0, 1, 2, 0 => some (sel 0 0 0 1 .a (swap1 0 3 .a))
  | 0, 1, 2, 1 => some (sel 0 0 0 1 .a (swap1 1 3 .a))
  | 0, 1, 2, 2 => some (sel 0 0 0 1 .a (swap1 2 3 .a))
  | 0, 1, 2, 3 => some .a
  | 0, 1, 3, 2 => some (sel 0 0 1 1 .a (rev21 .a))
  | 0, 1, 3, 3 => some (sel 0 0 1 0 .a (swap1 3 2 .a))
  | 0, 2, 0, 0 => some (sel 0 1 0 0 (bcast 0 .a) (swap1 2 1 .a))
  | 0, 2, 1, 0 => some (sel 0 1 1 1 .a (rev41 .a))
  | 0, 2, 1, 3 => some (sel 0 1 1 0 .a (rev41 .a))
  | 0, 2, 2, 0 => some (sel 0 1 0 1 .a (rev41 .a))
  | 0, 2, 2, 2 => some (sel 0 1 1 1 .a (bcast 2 .a))
  | 0, 2, 2, 3 => some (sel 0 1 0 0 .a (swap1 2 1 .a))
  | 0, 2, 3, 3 => some (sel 0 1 1 0 .a (mov_l 1 .a))
  | 0, 3, 0, 0 => some (sel 1 0 1 1 (swap1 3 1 .a) (bcast 0 .a))
  | 0, 3, 0, 1 => some (sel 0 1 1 1 .a (rev42 .a))
  | 0, 3, 0, 3 => some (sel 0 1 1 0 .a (rev42 .a))
  | 0, 3, 2, 1 => some (sel 0 1 0 1 .a (swap1 1 3 .a))
  | 0, 3, 2, 3 => some (sel 0 1 0 0 .a (swap1 3 1 .a))
  | 0, 3, 3, 3 => some (sel 0 1 1 1 .a (bcast 3 .a))
  | 1, 0, 0, 0 => some (sel 0 1 1 1 (swap1 1 0 .a) (bcast 0 .a))
  | 1, 0, 0, 1 => some (rev21 (sel 0 0 1 1 .a (rev41 .a)))
  | 1, 0, 1, 0 => some (rev21 (dup2_lo .a))
  | 1, 0, 1, 1 => some (sel 1 0 1 1 (swap1 1 0 .a) (bcast 1 .a))
  | 1, 0, 1, 2 => some (sel 0 1 1 1 (swap1 1 0 .a) (mov_r 1 .a))
  | 1, 0, 2, 2 => some (sel 0 0 1 1 (swap1 0 1 .a) (bcast 2 .a))
  | 1, 0, 2, 3 => some (sel 1 1 0 0 .a (swap1 0 1 .a))
  | 1, 0, 3, 2 => some (rev21 .a)
  | 1, 0, 3, 3 => some (sel 0 0 1 1 (swap1 0 1 .a) (bcast 3 .a))
  | 1, 1, 0, 0 => some (rev42 (dup_unpack_lo .a))
  | 1, 1, 0, 1 => some (sel 1 1 0 1 (swap1 0 2 .a) (bcast 1 .a))
  | 1, 1, 1, 0 => some (sel 1 1 1 0 (swap1 0 3 .a) (bcast 1 .a))
  | 1, 1, 1, 1 => some (bcast 1 .a)
  | 1, 1, 1, 2 => some (sel 1 1 1 0 (swap1 2 3 .a) (bcast 1 .a))
  | 1, 1, 1, 3 => some (sel 1 1 1 0 .a (bcast 1 .a))
  | 1, 1, 2, 1 => some (sel 1 1 0 1 .a (bcast 1 .a))
  | 1, 1, 2, 2 => some (sel 1 0 0 1 .a (rev21 .a))
  | 1, 1, 2, 3 => some (sel 1 0 0 0 .a (swap1 1 0 .a))
  | 1, 1, 3, 1 => some (sel 1 1 0 1 (swap1 3 2 .a) (bcast 1 .a))
  | 1, 1, 3, 3 => some (dup_hi .a)
  | 1, 2, 0, 1 => some (sel 1 1 0 0 (rev42 .a) (mov_l 1 .a))
  | 1, 2, 1, 0 => some (sel 1 0 0 0 (rev41 .a) (swap1 2 0 (rev41 .a)))
  | 1, 2, 1, 1 => some (sel 1 0 1 1 (swap1 2 1 .a) (bcast 1 .a))
  | 1, 2, 2, 2 => some (sel 0 1 1 1 (swap1 1 0 .a) (bcast 2 .a))
  | 1, 2, 3, 0 => some (sel 0 0 0 1 (mov_l 1 .a) (swap1 0 3 .a))
  | 1, 2, 3, 1 => some (sel 0 0 0 1 (mov_l 1 .a) (swap1 1 3 .a))
  | 1, 2, 3, 2 => some (sel 0 0 0 1 (mov_l 1 .a) (swap1 2 3 .a))
  | 1, 2, 3, 3 => some (sel 0 0 0 1 (mov_l 1 .a) .a)
  | 1, 3, 0, 1 => some (rev42 (sel 0 0 1 0 .a (swap1 1 2 .a)))
  | 1, 3, 1, 1 => some (sel 1 0 1 1 (swap1 3 1 .a) (bcast 1 .a))
  | 1, 3, 3, 3 => some (sel 0 1 1 1 (swap1 1 0 .a) (bcast 3 .a))
  | 2, 0, 0, 0 => some (sel 0 1 1 1 (swap1 2 0 .a) (bcast 0 .a))
  | 2, 0, 0, 1 => some (rev42 (sel 0 0 0 1 .a (swap1 0 3 .a)))
  | 2, 0, 1, 2 => some (sel 0 1 1 1 (swap1 2 0 .a) (mov_r 1 .a))
  | 2, 0, 2, 2 => some (sel 1 0 1 1 (swap1 0 1 .a) (bcast 2 .a))
  | 2, 1, 0, 1 => some (rev42 (sel 0 0 0 1 .a (swap1 1 3 .a)))
  | 2, 1, 0, 3 => some (sel 1 0 1 0 .a (swap1 0 2 .a))
  | 2, 1, 1, 1 => some (sel 0 1 1 1 (swap1 2 0 .a) (bcast 1 .a))
  | 2, 1, 2, 2 => some (sel 1 0 1 1 .a (bcast 2 .a))
  | 2, 1, 2, 3 => some (sel 1 0 0 0 .a (swap1 2 0 .a))
  | 2, 2, 0, 0 => some (rev41 (dup_lo .a))
  | 2, 2, 0, 1 => some (rev42 (sel 0 0 0 1 .a (swap1 2 3 .a)))
  | 2, 2, 0, 2 => some (sel 1 1 0 1 (swap1 0 2 .a) (bcast 2 .a))
  | 2, 2, 1, 0 => some (sel 1 0 0 0 (rev41 .a) (swap1 1 0 (rev41 .a)))
  | 2, 2, 1, 1 => some (sel 1 0 0 1 (rev41 .a) (rev21 (rev41 .a)))
  | 2, 2, 1, 2 => some (sel 1 1 0 1 (swap1 1 2 .a) (bcast 2 .a))
  | 2, 2, 2, 0 => some (sel 1 1 1 0 (swap1 0 3 .a) (bcast 2 .a))
  | 2, 2, 2, 1 => some (sel 1 1 1 0 (swap1 1 3 .a) (bcast 2 .a))
  | 2, 2, 2, 2 => some (bcast 2 .a)
  | 2, 2, 2, 3 => some (sel 1 1 1 0 .a (bcast 2 .a))
  | 2, 2, 3, 2 => some (sel 1 1 0 1 (swap1 3 2 .a) (bcast 2 .a))
  | 2, 2, 3, 3 => some (dup_unpack_hi .a)
  | 2, 3, 0, 0 => some (rev42 (sel 0 1 0 0 .a (swap1 0 1 .a)))
  | 2, 3, 0, 1 => some (rev42 .a)
  | 2, 3, 0, 2 => some (rev42 (sel 0 1 0 0 .a (swap1 2 1 .a)))
  | 2, 3, 0, 3 => some (rev42 (sel 0 1 0 0 .a (swap1 3 1 .a)))
  | 2, 3, 1, 0 => some (rev42 (sel 1 1 0 0 .a (swap1 1 0 .a)))
  | 2, 3, 1, 1 => some (rev42 (sel 1 0 0 0 .a (swap1 1 0 .a)))
  | 2, 3, 1, 2 => some (sel 0 0 1 1 (rev42 .a) (mov_r 1 .a))
  | 2, 3, 2, 1 => some (rev42 (sel 1 0 0 0 .a (swap1 2 0 .a)))
  | 2, 3, 2, 2 => some (sel 1 0 1 1 (swap1 3 1 .a) (bcast 2 .a))
  | 2, 3, 2, 3 => some (dup2_hi .a)
  | 2, 3, 3, 1 => some (rev42 (sel 1 0 0 0 .a (swap1 3 0 .a)))
  | 2, 3, 3, 2 => some (rev21 (sel 1 1 0 0 .a (rev41 .a)))
  | 2, 3, 3, 3 => some (sel 0 1 1 1 (swap1 2 0 .a) (bcast 3 .a))
  | 3, 0, 0, 0 => some (sel 0 1 1 1 (swap1 3 0 .a) (bcast 0 .a))
  | 3, 0, 1, 0 => some (sel 0 1 0 0 (rev41 .a) (swap1 3 1 (rev41 .a)))
  | 3, 0, 1, 2 => some (sel 0 1 1 1 (swap1 3 0 .a) (mov_r 1 .a))
  | 3, 0, 3, 3 => some (sel 1 0 1 1 (swap1 0 1 .a) (bcast 3 .a))
  | 3, 1, 1, 0 => some (sel 0 1 0 0 (rev41 .a) (swap1 2 1 (rev41 .a)))
  | 3, 1, 1, 1 => some (sel 0 1 1 1 (swap1 3 0 .a) (bcast 1 .a))
  | 3, 1, 1, 3 => some (sel 1 0 1 0 .a (rev41 .a))
  | 3, 1, 2, 0 => some (sel 1 0 0 1 .a (swap1 3 0 .a))
  | 3, 1, 2, 3 => some (sel 1 0 0 0 .a (swap1 3 0 .a))
  | 3, 1, 3, 3 => some (sel 1 0 1 1 .a (bcast 3 .a))
  | 3, 2, 0, 0 => some (rev41 (sel 0 1 0 0 .a (swap1 0 1 .a)))
  | 3, 2, 0, 1 => some (rev41 (sel 1 1 0 0 .a (swap1 0 1 .a)))
  | 3, 2, 1, 0 => some (rev41 .a)
  | 3, 2, 1, 1 => some (sel 0 0 0 1 (rev41 .a) (swap1 2 3 (rev41 .a)))
  | 3, 2, 1, 2 => some (sel 0 0 0 1 (rev41 .a) (swap1 1 3 (rev41 .a)))
  | 3, 2, 1, 3 => some (sel 0 0 0 1 (rev41 .a) (swap1 0 3 (rev41 .a)))
  | 3, 2, 2, 0 => some (rev41 (sel 0 1 0 0 .a (swap1 2 1 .a)))
  | 3, 2, 2, 1 => some (sel 0 0 1 1 (rev41 .a) (mov_r 1 (rev41 .a)))
  | 3, 2, 2, 2 => some (sel 0 1 1 1 (swap1 3 0 .a) (bcast 2 .a))
  | 3, 2, 2, 3 => some (sel 1 1 0 0 .a (rev41 .a))
  | 3, 2, 3, 0 => some (rev41 (sel 0 1 0 0 .a (swap1 3 1 .a)))
  | 3, 2, 3, 2 => some (rev21 (dup2_hi .a))
  | 3, 2, 3, 3 => some (sel 1 0 1 1 (swap1 2 1 .a) (bcast 3 .a))
  | 3, 3, 0, 0 => some (rev42 (sel 0 1 1 0 .a (rev21 .a)))
  | 3, 3, 0, 1 => some (rev42 (sel 0 0 1 0 .a (swap1 3 2 .a)))
  | 3, 3, 0, 3 => some (sel 1 1 0 1 (swap1 0 2 .a) (bcast 3 .a))
  | 3, 3, 1, 0 => some (sel 0 1 0 0 (rev41 .a) (swap1 0 1 (rev41 .a)))
  | 3, 3, 1, 1 => some (rev41 (dup_hi .a))
  | 3, 3, 1, 2 => some (sel 1 1 0 0 (mov_r 1 .a) (bcast 3 .a))
  | 3, 3, 1, 3 => some (sel 1 1 0 1 (swap1 1 2 .a) (bcast 3 .a))
  | 3, 3, 2, 0 => some (sel 0 1 1 0 (rev41 .a) (mov_r 1 (rev41 .a)))
  | 3, 3, 2, 1 => some (sel 0 1 1 1 (rev41 .a) (mov_r 1 (rev41 .a)))
  | 3, 3, 2, 2 => some (rev41 (dup_unpack_hi .a))
  | 3, 3, 2, 3 => some (sel 1 1 0 1 .a (bcast 3 .a))
  | 3, 3, 3, 0 => some (sel 1 1 1 0 (swap1 0 3 .a) (bcast 3 .a))
  | 3, 3, 3, 1 => some (sel 1 1 1 0 (swap1 1 3 .a) (bcast 3 .a))
  | 3, 3, 3, 2 => some (sel 1 1 1 0 (swap1 2 3 .a) (bcast 3 .a))
  | 3, 3, 3, 3 => some (bcast 3 .a)
  | _, _, _, _ => none

end Neon16

/-! ## NEON, 32-bit lanes

A half register is represented by a register that holds its two lanes twice. -/

namespace Neon32

/-- `vget_low_u32`. Models /repo/simdpp/detail/shuffle/neon_int32x4.h:32. -/
def lo (x : Prog) : Prog := .g (fun j => j % 2) x x
/-- `vget_high_u32`. Models /repo/simdpp/detail/shuffle/neon_int32x4.h:33. -/
def hi (x : Prog) : Prog := .g (fun j => 2 + j % 2) x x
/-- Models /repo/simdpp/detail/shuffle/neon_int32x4.h:36-41. -/
def bcast (k : Nat) (x : Prog) : Prog :=
  .g (fun _ => k % 2) (if k < 2 then lo x else hi x) (if k < 2 then lo x else hi x)
/-- `vcombine_u32`. Models /repo/simdpp/detail/shuffle/neon_int32x4.h:44. -/
def co (l h : Prog) : Prog := .g (fun j => if j < 2 then j else 4 + (j - 2)) l h
/-- `vrev64_u32`. Models /repo/simdpp/detail/shuffle/neon_int32x4.h:47. -/
def revH (x : Prog) : Prog := .g (fun j => 1 - j % 2) x x
/-- `vrev64q_u32`. Models /repo/simdpp/detail/shuffle/neon_int32x4.h:48. -/
def rev (x : Prog) : Prog := .g (fun j => if j % 2 = 0 then j + 1 else j - 1) x x
/-- `vdup_lane_u32(a, 0)`. Models /repo/simdpp/detail/shuffle/neon_int32x4.h:51. -/
def dup_lo (x : Prog) : Prog := .g (fun _ => 0) x x
/-- `vdup_lane_u32(a, 1)`. Models /repo/simdpp/detail/shuffle/neon_int32x4.h:52. -/
def dup_hi (x : Prog) : Prog := .g (fun _ => 1) x x
/-- `vzip_u32(a, b).val[0]` -/
def vzip0 (x y : Prog) : Prog := .g (fun j => if j % 2 = 0 then 0 else 4) x y
/-- `vzip_u32(a, b).val[1]` -/
def vzip1 (x y : Prog) : Prog := .g (fun j => if j % 2 = 0 then 1 else 5) x y
/-- `vext_u32(a, b, 1)` -/
def vext1 (x y : Prog) : Prog := .g (fun j => if j % 2 = 0 then 1 else 4) x y

/-- Models /repo/simdpp/detail/shuffle/neon_int32x4.h:57-80. -/
def shf2x2 (s0 s1 : Nat) (a b : Prog) : Prog :=
  match s0 * 4 + s1 with
  | 1 => a
  | 2 => vzip0 a b
  | 3 => revH (vext1 b a)
  | 4 => revH a
  | 5 => dup_hi a
  | 6 => vext1 a b
  | 7 => vzip1 a b
  | 8 => vzip0 b a
  | 9 => revH (vext1 a b)
  | 10 => dup_lo b
  | 11 => b
  | 12 => vext1 b a
  | 13 => vzip1 b a
  | 14 => revH b
  | 15 => dup_hi b
  | _ => dup_lo a

/-- Models /repo/simdpp/detail/shuffle/neon_int32x4.h:83-94. -/
def shf_1x2 (s0 s1 : Nat) (a b : Prog) : Prog :=
  match s0 * 2 + s1 with
  | 1 => revH (vext1 b a)
  | 2 => vext1 a b
  | 3 => vzip1 a b
  | _ => vzip0 a b

/-- Models /repo/simdpp/detail/shuffle/neon_int32x4.h:96-106. -/
def sel_lo_hi (sel : Nat) (a b : Prog) : Prog :=
  match sel with
  | 1 => hi a
  | 2 => lo b
  | 3 => hi b
  | _ => lo a

/-- Models /repo/simdpp/detail/shuffle/neon_int32x4.h:108-113. -/
def shf4x2 (s0 s1 : Nat) (a b : Prog) : Prog :=
  shf_1x2 (s0 % 2) (s1 % 2) (sel_lo_hi (s0 / 2) a b) (sel_lo_hi (s1 / 2) a b)

/-- Models /repo/simdpp/detail/shuffle/neon_int32x4.h:116-129. -/
def permute4 (s0 s1 s2 s3 : Nat) : Prog :=
  match s0, s1, s2, s3 with
  | 0, 0, 0, 0 => bcast 0 .a
  | 1, 1, 1, 1 => bcast 1 .a
  | 2, 2, 2, 2 => bcast 2 .a
  | 3, 3, 3, 3 => bcast 3 .a
  | 1, 0, 3, 2 => rev .a
  | _, _, _, _ => co (shf2x2 s0 s1 (lo .a) (hi .a)) (shf2x2 s2 s3 (lo .a) (hi .a))

/-- Models /repo/simdpp/detail/shuffle/neon_int32x4.h:155-159. -/
def shuffle2x2 (s0 s1 : Nat) : Prog :=
  co (shf2x2 s0 s1 (lo .a) (lo .b)) (shf2x2 s0 s1 (hi .a) (hi .b))

/-- Models /repo/simdpp/detail/shuffle/neon_int32x4.h:162-166. -/
def shuffle4x2 (s0 s1 s2 s3 : Nat) : Prog := co (shf4x2 s0 s1 .a .b) (shf4x2 s2 s3 .a .b)

end Neon32

/-! ## x86, `float32` -/

namespace SseF32

open Prog

/-- Immediate for a blend of a register, from the 4-bit pattern of one 128-bit block
(`_mm_blend_ps`: 4 bits, `_mm256_blend_ps`: 8, `_mm512_mask_blend_ps`: 16). -/
def blendMask (r : Reg) (x0 x1 x2 x3 : Nat) : Nat :=
  match r with
  | .r128 => mask4x2 x0 x1 x2 x3
  | .r256 => mask4x2_2 x0 x1 x2 x3
  | .r512 => mask4x2_4 x0 x1 x2 x3

/-- Models /repo/simdpp/detail/shuffle/sse_float32_4x2.h:35-80 (`impl_selector`). -/
def impl (sse41 : Bool) (s0 s1 s2 s3 : Nat) : Nat :=
  let is1 := s0 = 0 ∧ s1 = 4 ∧ s2 = 1 ∧ s3 = 5
  let is2 := s0 = 4 ∧ s1 = 0 ∧ s2 = 5 ∧ s3 = 1
  let is3 := s0 = 2 ∧ s1 = 6 ∧ s2 = 3 ∧ s3 = 7
  let is4 := s0 = 6 ∧ s1 = 2 ∧ s2 = 7 ∧ s3 = 3
  let is5 := sse41 ∧ (s0 = 0 ∨ s0 = 4) ∧ (s1 = 1 ∨ s1 = 5) ∧ (s2 = 2 ∨ s2 = 6) ∧ (s3 = 3 ∨ s3 = 7)
  let is6 := s0 < 4 ∧ s1 < 4 ∧ s2 ≥ 4 ∧ s3 ≥ 4
  let is7 := s0 ≥ 4 ∧ s1 ≥ 4 ∧ s2 < 4 ∧ s3 < 4
  let is8 := sse41 ∧ s2 ≥ 4 ∧ s3 ≥ 4 ∧ s0 % 4 ≠ s1 % 4
  let is9 := sse41 ∧ s2 < 4 ∧ s3 < 4 ∧ s0 % 4 ≠ s1 % 4
  let is10 := s2 ≥ 4 ∧ s3 ≥ 4
  let is11 := s2 < 4 ∧ s3 < 4
  let is12 := sse41 ∧ s0 ≥ 4 ∧ s1 ≥ 4 ∧ s2 % 4 ≠ s3 % 4
  let is13 := sse41 ∧ s0 < 4 ∧ s1 < 4 ∧ s2 % 4 ≠ s3 % 4
  let is14 := s0 ≥ 4 ∧ s1 ≥ 4
  let is15 := s0 < 4 ∧ s1 < 4
  if is1 then 1 else if is2 then 2 else if is3 then 3 else if is4 then 4 else if is5 then 5
  else if is6 then 6 else if is7 then 7 else if is8 then 8 else if is9 then 9 else if is10 then 10
  else if is11 then 11 else if is12 then 12 else if is13 then 13 else if is14 then 14
  else if is15 then 15 else 16

/-- `select2_hi<s0,s1>`. Models /repo/simdpp/detail/shuffle/sse_float32_4x2.h:230-263. -/
def select2_hi (r : Reg) (s0 s1 : Nat) : Prog :=
  let mask := (if s0 = 4 ∨ s1 = 4 then 1 else 0) ||| (if s0 = 5 ∨ s1 = 5 then 2 else 0) |||
    (if s0 = 6 ∨ s1 = 6 then 4 else 0) ||| (if s0 = 7 ∨ s1 = 7 then 8 else 0)
  match r with
  | .r128 => .bl mask .a .b
  | .r256 => .bl (mask ||| mask <<< 4) .a .b
  | .r512 => .bl (mask ||| mask <<< 4 ||| mask <<< 8 ||| mask <<< 12) .a .b

/-- `s/4 ? 3 : 1` and `s/4 ? 2 : 0`. -/
def hi31 (s : Nat) : Nat := if s / 4 ≠ 0 then 3 else 1
/-- see `hi31` -/
def lo20 (s : Nat) : Nat := if s / 4 ≠ 0 then 2 else 0

/-- `shuffle_impl<N>::run`. Models /repo/simdpp/detail/shuffle/sse_float32_4x2.h:86-559. -/
def run (sse41 : Bool) (r : Reg) (s0 s1 s2 s3 : Nat) : Prog :=
  let ab1 := shufps .a .b (mmShuffle (s1 % 4) (s0 % 4) (s1 % 4) (s0 % 4))
  let ab2 := shufps .a .b (mmShuffle (s3 % 4) (s2 % 4) (s3 % 4) (s2 % 4))
  match impl sse41 s0 s1 s2 s3 with
  | 1 => unpacklo32 .a .b
  | 2 => unpacklo32 .b .a
  | 3 => unpackhi32 .a .b
  | 4 => unpackhi32 .b .a
  | 5 => .bl (blendMask r (s0 / 4) (s1 / 4) (s2 / 4) (s3 / 4)) .a .b
  | 6 => shufps .a .b (mmShuffle (usub s3 4) (usub s2 4) s1 s0)
  | 7 => shufps .b .a (mmShuffle s3 s2 (usub s1 4) (usub s0 4))
  | 8 => shufps (select2_hi r s0 s1) .b (mmShuffle (usub s3 4) (usub s2 4) (s1 % 4) (s0 % 4))
  | 9 => shufps (select2_hi r s0 s1) .a (mmShuffle s3 s2 (s1 % 4) (s0 % 4))
  | 10 => shufps ab1 .b (mmShuffle (usub s3 4) (usub s2 4) (hi31 s1) (lo20 s0))
  | 11 => shufps ab1 .a (mmShuffle s3 s2 (hi31 s1) (lo20 s0))
  | 12 => shufps .b (select2_hi r s2 s3) (mmShuffle (s3 % 4) (s2 % 4) (usub s1 4) (usub s0 4))
  | 13 => shufps .a (select2_hi r s2 s3) (mmShuffle (s3 % 4) (s2 % 4) s1 s0)
  | 14 => shufps .b ab2 (mmShuffle (hi31 s3) (lo20 s2) (usub s1 4) (usub s0 4))
  | 15 => shufps .a ab2 (mmShuffle (hi31 s3) (lo20 s2) s1 s0)
  | _ =>
    let m := mask4x4 (s0 % 4) (s1 % 4) (s2 % 4) (s3 % 4)
    if sse41 then
      .bl (blendMask r (s0 / 4) (s1 / 4) (s2 / 4) (s3 / 4)) (shufps .a .a m) (shufps .b .b m)
    else shufps ab1 ab2 (mmShuffle (hi31 s3) (lo20 s2) (hi31 s1) (lo20 s0))

end SseF32

/-! ## x86, `int32` -/

namespace SseI32

open Prog

/-- Models /repo/simdpp/detail/shuffle/sse_int32_4x2.h:37-58 (`impl_selector`; `s0 == s1-1` in
`unsigned`). -/
def impl (ssse3 sse41 : Bool) (s0 s1 s2 s3 : Nat) : Nat :=
  let is1 := s0 = 0 ∧ s1 = 4 ∧ s2 = 1 ∧ s3 = 5
  let is2 := s0 = 4 ∧ s1 = 0 ∧ s2 = 5 ∧ s3 = 1
  let is3 := s0 = 2 ∧ s1 = 6 ∧ s2 = 3 ∧ s3 = 7
  let is4 := s0 = 6 ∧ s1 = 2 ∧ s2 = 7 ∧ s3 = 3
  let is5 := sse41 ∧ (s0 = 0 ∨ s0 = 4) ∧ (s1 = 1 ∨ s1 = 5) ∧ (s2 = 2 ∨ s2 = 6) ∧ (s3 = 3 ∨ s3 = 7)
  let is6 := ssse3 ∧ s0 = usub s1 1 ∧ s1 = usub s2 1 ∧ s2 = usub s3 1
  if is1 then 1 else if is2 then 2 else if is3 then 3 else if is4 then 4 else if is5 then 5
  else if is6 then 6 else 7

/-- Lane-wise blend masks. Models /repo/simdpp/detail/shuffle/sse_int32_4x2.h:141-142, 150-151. -/
def bmask (s0 s1 s2 s3 : Nat) : Nat :=
  (if s0 < 4 then 0 else 1) ||| (if s1 < 4 then 0 else 2) ||| (if s2 < 4 then 0 else 4) |||
    (if s3 < 4 then 0 else 8)

/-- `shuffle_impl<N>::run`, except `shuffle_impl<6>` on 512-bit registers.
Models /repo/simdpp/detail/shuffle/sse_int32_4x2.h:64-230. -/
def run (ssse3 sse41 avx2 : Bool) (r : Reg) (s0 s1 s2 s3 : Nat) : Prog :=
  match impl ssse3 sse41 s0 s1 s2 s3 with
  | 1 => unpacklo32 .a .b
  | 2 => unpacklo32 .b .a
  | 3 => unpackhi32 .a .b
  | 4 => unpackhi32 .b .a
  | 5 =>
    match r with
    | .r128 => blendw32 .a .b ((if s0 < 4 then 0 else 0x03) ||| (if s1 < 4 then 0 else 0x0c) |||
        (if s2 < 4 then 0 else 0x30) ||| (if s3 < 4 then 0 else 0xc0))
    | .r256 => let mask := bmask s0 s1 s2 s3; .bl (mask ||| mask <<< 4) .a .b
    | .r512 => let mask := bmask s0 s1 s2 s3
      .bl (mask ||| mask <<< 4 ||| mask <<< 8 ||| mask <<< 12) .a .b
  | 6 => alignr32 .b .a (s0 * 4)
  | _ =>
    let m := mask4x4 (s0 % 4) (s1 % 4) (s2 % 4) (s3 % 4)
    let pa := pshufd .a m
    let pb := pshufd .b m
    match r with
    | .r128 =>
      if avx2 then .bl (mask4x2 (s0 / 4) (s1 / 4) (s2 / 4) (s3 / 4)) pa pb
      else if sse41 then
        blendw32 pa pb (mask4x4 (s0 / 4 * 3) (s1 / 4 * 3) (s2 / 4 * 3) (s3 / 4 * 3))
      else
        let ab1 := shufps .a .b (mmShuffle (s1 % 4) (s0 % 4) (s1 % 4) (s0 % 4))
        let ab2 := shufps .a .b (mmShuffle (s3 % 4) (s2 % 4) (s3 % 4) (s2 % 4))
        shufps ab1 ab2 (mmShuffle (SseF32.hi31 s3) (SseF32.lo20 s2) (SseF32.hi31 s1) (SseF32.lo20 s0))
    | .r256 => .bl (mask4x2_2 (s0 / 4) (s1 / 4) (s2 / 4) (s3 / 4)) pa pb
    | .r512 => .bl (mask4x2_4 (s0 / 4) (s1 / 4) (s2 / 4) (s3 / 4)) pa pb

/-- `shuffle_impl<6>` on 512-bit registers: `_mm512_alignr_epi32` works on the whole register
(blocks of sixteen). Models /repo/simdpp/detail/shuffle/sse_int32_4x2.h:173-181. -/
def run6_512 (s0 : Nat) : Prog :=
  let ap : Prog := .g (fun j => j + s0 % 16) .a .a
  let mask := mask4x2_4 (if s0 > 3 then 1 else 0) (if s0 > 2 then 1 else 0) (if s0 > 1 then 1 else 0)
    (if s0 > 0 then 1 else 0)
  .bl mask ap (.g (fun j => j + (s0 + 12) % 16) .b .b)

end SseI32

/-! ## The operations -/

/-- `s0..s3` as a function of the lane. -/
def sel4 (s0 s1 s2 s3 : Nat) (j : Nat) : Nat :=
  if j = 0 then s0 else if j = 1 then s1 else if j = 2 then s2 else s3

/-- `s0, s1` as a function of the lane. -/
def sel2 (s0 s1 : Nat) (j : Nat) : Nat := if j = 0 then s0 else s1

namespace Null

/-- `s < L ? a.el(s) : b.el(s-L)`. Models /repo/simdpp/detail/insn/shuffle4x2.h:56-59, shuffle2x2.h:39-40. -/
def pick {w : Nat} (L s : Nat) (a b : Vec w n) : Option (BitVec w) :=
  if s < L then rd a s else rd b (s - L)

/-- `s < 2 ? a.el(s+2) : b.el(s)`. Models /repo/simdpp/detail/insn/shuffle2x2.h:41-42. -/
def pickHi {w : Nat} (s : Nat) (a b : Vec w n) : Option (BitVec w) :=
  if s < 2 then rd a (s + 2) else rd b s

/-- Models /repo/simdpp/detail/insn/shuffle4x2.h:55-60, 147-152. -/
def shuffle4x2 {w : Nat} (s0 s1 s2 s3 : Nat) (a b : Vec w n) : Option (Vec w n) := do
  let r ← wr unset 0 (← pick 4 s0 a b)
  let r ← wr r 1 (← pick 4 s1 a b)
  let r ← wr r 2 (← pick 4 s2 a b)
  let r ← wr r 3 (← pick 4 s3 a b)
  ret r

/-- Models /repo/simdpp/detail/insn/shuffle2x2.h:38-43, 257-262. -/
def shuffle2x2_32 {w : Nat} (s0 s1 : Nat) (a b : Vec w n) : Option (Vec w n) := do
  let r ← wr unset 0 (← pick 2 s0 a b)
  let r ← wr r 1 (← pick 2 s1 a b)
  let r ← wr r 2 (← pickHi s0 a b)
  let r ← wr r 3 (← pickHi s1 a b)
  ret r

end Null

/-- `make_shuffle_bytes16_mask<s...>` followed by `shuffle_bytes16` on a 128-bit register of
`w`-bit elements. Models /repo/simdpp/detail/insn/shuffle4x2.h:66-67, 158-159, shuffle2x2.h:69-70, 290-291. -/
def maskShuffle (c : Cfg) {w : Nat} (q u : Nat) (s : Nat → Nat) (a b : Vec w n) : Option (Vec w n) := do
  let M ← makeShuffleMask q u (fun p => (s p : Int))
  let t ← i_shuffle_bytes16 c .r128 (a.recast 8 16) (b.recast 8 16) (maskVec16 16 M)
  some (t.recast w n)

/-- `make_shuffle_bytes16_mask<s...>` followed by `permute_bytes16`.
Models /repo/simdpp/detail/insn/permute4.h:55-56, 111-112, 161-162, neon_int16x8.h:200-206. -/
def maskPermute (c : Cfg) {w : Nat} (q u : Nat) (s : Nat → Nat) (a : Vec w n) : Option (Vec w n) := do
  let M ← makeShuffleMask q u (fun p => (s p : Int))
  let t ← i_permute_bytes16 c .r128 (a.recast 8 16) (maskVec16 16 M)
  some (t.recast w n)

/-- The x86 sequences of `i_shuffle4x2` on 32-bit lanes.
Models /repo/simdpp/detail/insn/shuffle4x2.h:61-62, 80, 91 (`flt`), 153-154, 172, 183 (`int`). -/
def sse4x2_32 (c : Cfg) (k : Kind) (r : Reg) (s0 s1 s2 s3 : Nat) (a b : Vec 32 n) : Vec 32 n :=
  match k with
  | .flt => (SseF32.run c.sse41 r s0 s1 s2 s3).run 4 a b
  | .int =>
    if SseI32.impl c.ssse3 c.sse41 s0 s1 s2 s3 = 6 ∧ r = .r512 then (SseI32.run6_512 s0).run 16 a b
    else (SseI32.run c.ssse3 c.sse41 c.avx2 r s0 s1 s2 s3).run 4 a b

/-- `i_shuffle4x2<s0,s1,s2,s3>` on a register of 32-bit lanes.
Models /repo/simdpp/detail/insn/shuffle4x2.h:50-94 (`flt`), 142-186 (`int`). -/
def i_shuffle4x2_32 (c : Cfg) (k : Kind) (r : Reg) (s0 s1 s2 s3 : Nat) (a b : Vec 32 n) :
    Option (Vec 32 n) :=
  if ¬ (s0 < 8 ∧ s1 < 8 ∧ s2 < 8 ∧ s3 < 8) then none else
  let sse := sse4x2_32 c k r s0 s1 s2 s3 a b
  match r with
  | .r128 =>
    if c.null ∨ (k = .flt ∧ c.neonNoFltSp) then Null.shuffle4x2 s0 s1 s2 s3 a b
    else if c.sse2 then some sse
    else if c.neon then some ((Neon32.shuffle4x2 s0 s1 s2 s3).run 4 a b)
    else if c.altivec then maskShuffle c 4 4 (sel4 s0 s1 s2 s3) a b
    else if c.msa then some (Hw.vshf (sel4 s0 s1 s2 s3) b a)
    else none
  | .r256 => if c.hasVec k 32 .r256 then some sse else none
  | .r512 => if c.hasVec k 32 .r512 then some sse else none

/-- `i_permute4<s0,s1,s2,s3>` on a register of 16-bit lanes.
Models /repo/simdpp/detail/insn/permute4.h:40-84. -/
def i_permute4_16 (c : Cfg) (r : Reg) (s0 s1 s2 s3 : Nat) (a : Vec 16 n) : Option (Vec 16 n) :=
  if ¬ (s0 < 4 ∧ s1 < 4 ∧ s2 < 4 ∧ s3 < 4) then none else
  let m := mask4x4 s0 s1 s2 s3
  let sse := Hw.shufflehi_epi16 (Hw.shufflelo_epi16 a m) m
  match r with
  | .r128 =>
    if c.null then Null.permute4 s0 s1 s2 s3 a
    else if c.sse2 then some sse
    else if c.neon then
      match Neon16.perm4 s0 s1 s2 s3 with
      | some p => some (p.run 4 a a)
      | none => maskPermute c 2 4 (sel4 s0 s1 s2 s3) a
    else if c.altivec then maskPermute c 2 4 (sel4 s0 s1 s2 s3) a
    else if c.msa then some (Hw.shf a m)
    else none
  | .r256 => if c.avx2 then some sse else none
  | .r512 => if c.avx512bw then some sse else none

/-- `i_permute4<s0,s1,s2,s3>` on a register of 32-bit lanes. `gnuc`: `__GNUC__` is defined, which
chooses `__builtin_shuffle` on NEON. Models /repo/simdpp/detail/insn/permute4.h:95-134 (`int`), 145-184 (`flt`). -/
def i_permute4_32 (c : Cfg) (gnuc : Bool) (k : Kind) (r : Reg) (s0 s1 s2 s3 : Nat) (a : Vec 32 n) :
    Option (Vec 32 n) :=
  if ¬ (s0 < 4 ∧ s1 < 4 ∧ s2 < 4 ∧ s3 < 4) then none else
  let sse := match k with
    | .int => Hw.shuffle_epi32 a (mmShuffle s3 s2 s1 s0)
    | .flt => Hw.shuffle_ps a a (mmShuffle s3 s2 s1 s0)
  match r with
  | .r128 =>
    if c.null then Null.permute4 s0 s1 s2 s3 a
    else if c.sse2 then some sse
    else if c.neon then
      if gnuc ∧ (k = .int ∨ c.neonFltSp) then some (gather 4 (sel4 s0 s1 s2 s3) a a)
      else some ((Neon32.permute4 s0 s1 s2 s3).run 4 a a)
    else if c.altivec then maskPermute c 4 4 (sel4 s0 s1 s2 s3) a
    else if c.msa then some (Hw.shf a (mask4x4 s0 s1 s2 s3))
    else none
  | .r256 => if c.hasVec k 32 .r256 then some sse else none
  | .r512 => if c.hasVec k 32 .r512 then some sse else none

/-- `i_permute2<s0,s1>` on 16-bit lanes. Models /repo/simdpp/detail/insn/permute2.h:31-36. -/
def i_permute2_16 (c : Cfg) (r : Reg) (s0 s1 : Nat) (a : Vec 16 n) : Option (Vec 16 n) :=
  if ¬ (s0 < 2 ∧ s1 < 2) then none else i_permute4_16 c r s0 s1 (s0 + 2) (s1 + 2) a

/-- `i_permute2<s0,s1>` on 32-bit lanes. Models /repo/simdpp/detail/insn/permute2.h:39-52. -/
def i_permute2_32 (c : Cfg) (gnuc : Bool) (k : Kind) (r : Reg) (s0 s1 : Nat) (a : Vec 32 n) :
    Option (Vec 32 n) :=
  if ¬ (s0 < 2 ∧ s1 < 2) then none else i_permute4_32 c gnuc k r s0 s1 (s0 + 2) (s1 + 2) a

/-- `shuffle2<sa0,sa1,sb0,sb1>`. Models /repo/simdpp/core/shuffle2.h:58-67. -/
def shuffle2 (c : Cfg) (k : Kind) (r : Reg) (sa0 sa1 sb0 sb1 : Nat) (a b : Vec 32 n) :
    Option (Vec 32 n) :=
  if ¬ (sa0 < 4 ∧ sa1 < 4 ∧ sb0 < 4 ∧ sb1 < 4) then none
  else i_shuffle4x2_32 c k r sa0 sa1 (sb0 + 4) (sb1 + 4) a b

/-- The x86 sequences of `i_shuffle2x2` on 32-bit lanes. Models
/repo/simdpp/detail/insn/shuffle2x2.h:44-65, 88-104, 113-129 (`flt`), 263-286, 310-330, 339-359 (`int`).
`permute_ps(t, imm)` is `shuffle_ps(t, t, imm)`. -/
def sse2x2_32 (sse41 : Bool) (k : Kind) (r : Reg) (s0 s1 : Nat) : Prog :=
  open Prog in
  let perm := fun (x : Prog) (imm : Nat) => match k with
    | .int => pshufd x imm
    | .flt => shufps x x imm
  let blend := fun (x y : Prog) => match k, r with
    | .int, .r128 => blendw32 x y 0xcc
    | .int, .r256 => Prog.bl 0xa x y
    | .flt, .r128 => Prog.bl 0xa x y
    | .flt, .r256 => Prog.bl 0xaa x y
    | _, .r512 => Prog.bl 0xaaaa x y
  if s0 < 2 ∧ s1 < 2 then perm .a (mask4x4 s0 s1 (s0 + 2) (s1 + 2))
  else if s0 ≥ 2 ∧ s1 ≥ 2 then perm .b (mask4x4 (s0 - 2) (s1 - 2) s0 s1)
  else if (sse41 ∨ r ≠ .r128) ∧ s0 = 0 ∧ s1 = 3 then blend .a .b
  else if (sse41 ∨ r ≠ .r128) ∧ s0 = 2 ∧ s1 = 1 then blend .b .a
  else if s0 < 2 then
    let t := shufps .a .b (mask4x4 s0 (s0 + 1) (s1 - 2) (s1 - 1))
    shufps t t (mmShuffle 3 1 2 0)
  else
    let t := shufps .b .a (mask4x4 s1 (s1 + 1) (s0 - 2) (s0 - 1))
    shufps t t (mmShuffle 3 1 2 0)

/-- `i_shuffle2x2<s0,s1>` on a register of 32-bit lanes.
Models /repo/simdpp/detail/insn/shuffle2x2.h:33-131 (`flt`), 252-361 (`int`). -/
def i_shuffle2x2_32 (c : Cfg) (k : Kind) (r : Reg) (s0 s1 : Nat) (a b : Vec 32 n) : Option (Vec 32 n) :=
  if ¬ (s0 < 4 ∧ s1 < 4) then none else
  let sse := (sse2x2_32 c.sse41 k r s0 s1).run 4 a b
  match r with
  | .r128 =>
    if c.null then Null.shuffle2x2_32 s0 s1 a b
    else if c.sse2 then some sse
    else if c.neon then some ((Neon32.shuffle2x2 s0 s1).run 4 a b)
    else if c.altivec then maskShuffle c 4 2 (sel2 s0 s1) a b
    else if c.msa then
      let q0 := if s0 < 2 then s0 else s0 + 2
      let q1 := if s1 < 2 then s1 else s1 + 2
      some (Hw.vshf (sel4 q0 q1 (q0 + 2) (q1 + 2)) b a)
    else none
  | .r256 => if c.hasVec k 32 .r256 then some sse else none
  | .r512 => if c.hasVec k 32 .r512 then some sse else none

end Simdpp
