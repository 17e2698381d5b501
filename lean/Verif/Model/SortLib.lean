import Verif.Model.Shuffle32
import Verif.Model.MinMax
import Verif.Model.FltOps
import Verif.Model.MemPack

/-!
# Bitonic sort, as the library executes it (`simdpp/algorithm/bitonic_sort.h`)

`Model/Sort.lean` describes the network with the documented effect of the shuffles. Here every step is the library's own
function on the build `c`: an 8-lane vector of 32-bit lanes is one 256-bit register or two 128-bit registers, and `permute4`,
`shuffle4x2`, `min`, `max` and `shuffle1_128` are the models of the functions the library calls on them. `k` is the lane
kind (`int`/`flt`), `s` the signedness of integer lanes, `gnuc` the compiler (used by the NEON `permute4`).
-/

namespace Simdpp.SortLib

/-- A function of one register applied to every register of an 8-lane vector
(`SIMDPP_VEC_ARRAY_IMPL1`). Models /repo/simdpp/detail/vector_array_macros.h:18-35. -/
def regs1 (c : Cfg) (k : Kind) (f : (r : Reg) → Vec 32 (r.lanes 32) → Option (Vec 32 (r.lanes 32))) (a : Vec 32 8) : Option (Vec 32 8) :=
  let r := c.regK k 32 8
  catM (r.lanes 32) fun i => f r (Hw.part (r.lanes 32) i a)

/-- A function of two registers applied to every pair of registers (`SIMDPP_VEC_ARRAY_IMPL2`).
Models /repo/simdpp/detail/vector_array_macros.h:18-35. -/
def regs2 (c : Cfg) (k : Kind) (f : (r : Reg) → Vec 32 (r.lanes 32) → Vec 32 (r.lanes 32) → Option (Vec 32 (r.lanes 32)))
    (a b : Vec 32 8) : Option (Vec 32 8) :=
  let r := c.regK k 32 8
  catM (r.lanes 32) fun i => f r (Hw.part (r.lanes 32) i a) (Hw.part (r.lanes 32) i b)

/-- `permute4<s0,s1,s2,s3>(a)`. Models /repo/simdpp/core/permute4.h:96-105. -/
def permute4 (c : Cfg) (gnuc : Bool) (k : Kind) (s0 s1 s2 s3 : Nat) (a : Vec 32 8) : Option (Vec 32 8) :=
  regs1 c k (fun r => i_permute4_32 c gnuc k r s0 s1 s2 s3) a

/-- `shuffle4x2<s0,s1,s2,s3>(a, b)`. Models /repo/simdpp/core/shuffle4x2.h:34-48. -/
def shuffle4x2 (c : Cfg) (k : Kind) (s0 s1 s2 s3 : Nat) (a b : Vec 32 8) : Option (Vec 32 8) :=
  regs2 c k (fun r => i_shuffle4x2_32 c k r s0 s1 s2 s3) a b

/-- `min(a, b)` of the lane type. Models /repo/simdpp/core/i_min.h, /repo/simdpp/core/f_min.h. -/
def vmin (c : Cfg) (k : Kind) (s : Bool) (a b : Vec 32 8) : Option (Vec 32 8) :=
  match k with
  | .int => regs2 c .int (fun r => i_min c s r) a b
  | .flt => regs2 c .flt (fun r => i_fmin c r) a b

/-- `max(a, b)` of the lane type. Models /repo/simdpp/core/i_max.h, /repo/simdpp/core/f_max.h. -/
def vmax (c : Cfg) (k : Kind) (s : Bool) (a b : Vec 32 8) : Option (Vec 32 8) :=
  match k with
  | .int => regs2 c .int (fun r => i_max c s r) a b
  | .flt => regs2 c .flt (fun r => i_fmax c r) a b

/-- `detail::shuffle1_128<s0,s1>(a, b)`: one instruction on a 256-bit register, otherwise a copy of two of the four
128-bit registers. Models /repo/simdpp/detail/insn/shuffle128.h:106-151. Simplified: the integer version works on
`uint8<32>` bit casts. -/
def shuffle1_128 (c : Cfg) (k : Kind) (s0 s1 : Nat) (a b : Vec 32 8) : Option (Vec 32 8) :=
  if s0 < 2 ∧ s1 < 2 then
    if c.regK k 32 8 = .r256 then Simdpp.shuffle1_128 c k s0 s1 a b
    else catM 4 fun i => some (if i = 0 then Hw.part 4 s0 a else Hw.part 4 s1 b)
  else none

variable (c : Cfg) (gnuc : Bool) (k : Kind) (s : Bool)

/-- Models /repo/simdpp/algorithm/bitonic_sort.h:18-29. -/
def sort_4lane_2el_asc_2el_dec (a : Vec 32 8) : Option (Vec 32 8) := do
  let swapped ← permute4 c gnuc k 1 0 3 2 a
  let mn ← vmin c k s a swapped
  let mx ← vmax c k s a swapped
  shuffle4x2 c k 1 4 7 2 mn mx

/-- Models /repo/simdpp/algorithm/bitonic_sort.h:31-42. -/
def sort_4lane_2el_asc_2el_asc (a : Vec 32 8) : Option (Vec 32 8) := do
  let swapped ← permute4 c gnuc k 1 0 3 2 a
  let mn ← vmin c k s a swapped
  let mx ← vmax c k s a swapped
  shuffle4x2 c k 1 4 2 7 mn mx

/-- Models /repo/simdpp/algorithm/bitonic_sort.h:44-55. -/
def sort_4lane_2el_dec_2el_dec (a : Vec 32 8) : Option (Vec 32 8) := do
  let swapped ← permute4 c gnuc k 1 0 3 2 a
  let mx ← vmax c k s a swapped
  let mn ← vmin c k s a swapped
  shuffle4x2 c k 1 4 2 7 mx mn

/-- Models /repo/simdpp/algorithm/bitonic_sort.h:57-67. -/
def sort_4lane_corresponding_2el_asc (a : Vec 32 8) : Option (Vec 32 8) := do
  let swapped ← permute4 c gnuc k 2 3 0 1 a
  let mn ← vmin c k s a swapped
  let mx ← vmax c k s a swapped
  shuffle4x2 c k 0 1 4 5 mn mx

/-- Models /repo/simdpp/algorithm/bitonic_sort.h:69-79. -/
def sort_4lane_corresponding_2el_dec (a : Vec 32 8) : Option (Vec 32 8) := do
  let swapped ← permute4 c gnuc k 2 3 0 1 a
  let mx ← vmax c k s a swapped
  let mn ← vmin c k s a swapped
  shuffle4x2 c k 0 1 4 5 mx mn

/-- Models /repo/simdpp/algorithm/bitonic_sort.h:81-92. -/
def sort_8lane_corresponding_4el_asc (a : Vec 32 8) : Option (Vec 32 8) := do
  let lo ← shuffle1_128 c k 0 0 a a
  let hi ← shuffle1_128 c k 1 1 a a
  let mn ← vmin c k s lo hi
  let mx ← vmax c k s lo hi
  shuffle1_128 c k 0 0 mn mx

/-- Models /repo/simdpp/algorithm/bitonic_sort.h:94-105. -/
def sort_8lane_corresponding_4el_dec (a : Vec 32 8) : Option (Vec 32 8) := do
  let lo ← shuffle1_128 c k 0 0 a a
  let hi ← shuffle1_128 c k 1 1 a a
  let mn ← vmin c k s lo hi
  let mx ← vmax c k s lo hi
  shuffle1_128 c k 0 0 mx mn

/-- Models /repo/simdpp/algorithm/bitonic_sort.h:107-115. -/
def reverse_8lane_top4 (a : Vec 32 8) : Option (Vec 32 8) := do
  let rev ← permute4 c gnuc k 3 2 1 0 a
  shuffle1_128 c k 0 1 a rev

/-- Models /repo/simdpp/algorithm/bitonic_sort.h:117-125. -/
def reverse_8lane_bottom4 (a : Vec 32 8) : Option (Vec 32 8) := do
  let rev ← permute4 c gnuc k 3 2 1 0 a
  shuffle1_128 c k 0 1 rev a

/-- Models /repo/simdpp/algorithm/bitonic_sort.h:127-137. -/
def sort_8lane_4el_asc_4el_dec (a : Vec 32 8) : Option (Vec 32 8) := do
  let r ← sort_4lane_2el_asc_2el_dec c gnuc k s a
  let r ← sort_4lane_corresponding_2el_asc c gnuc k s r
  let r ← sort_4lane_2el_asc_2el_asc c gnuc k s r
  reverse_8lane_top4 c gnuc k r

/-- Models /repo/simdpp/algorithm/bitonic_sort.h:139-149. -/
def sort_8lane_4el_dec_4el_asc (a : Vec 32 8) : Option (Vec 32 8) := do
  let r ← sort_4lane_2el_asc_2el_dec c gnuc k s a
  let r ← sort_4lane_corresponding_2el_asc c gnuc k s r
  let r ← sort_4lane_2el_asc_2el_asc c gnuc k s r
  reverse_8lane_bottom4 c gnuc k r

/-- Models /repo/simdpp/algorithm/bitonic_sort.h:151-159. -/
def finalize_asc (a : Vec 32 8) : Option (Vec 32 8) := do
  let r ← sort_8lane_corresponding_4el_asc c k s a
  let r ← sort_4lane_corresponding_2el_asc c gnuc k s r
  sort_4lane_2el_asc_2el_asc c gnuc k s r

/-- Models /repo/simdpp/algorithm/bitonic_sort.h:161-169. -/
def finalize_dec (a : Vec 32 8) : Option (Vec 32 8) := do
  let r ← sort_8lane_corresponding_4el_dec c k s a
  let r ← sort_4lane_corresponding_2el_dec c gnuc k s r
  sort_4lane_2el_dec_2el_dec c gnuc k s r

/-- `bitonic_sort_asc(a0)`: the new contents of `a0`. Models /repo/simdpp/algorithm/bitonic_sort.h:175-180. -/
def bitonic_sort_asc (a0 : Vec 32 8) : Option (Vec 32 8) := do
  finalize_asc c gnuc k s (← sort_8lane_4el_asc_4el_dec c gnuc k s a0)

/-- `bitonic_sort_dec(a0)`. Models /repo/simdpp/algorithm/bitonic_sort.h:182-187. -/
def bitonic_sort_dec (a0 : Vec 32 8) : Option (Vec 32 8) := do
  finalize_dec c gnuc k s (← sort_8lane_4el_dec_4el_asc c gnuc k s a0)

/-- `bitonic_sort_asc(a0, a1)`: the new contents of `a0` and `a1`. Models /repo/simdpp/algorithm/bitonic_sort.h:190-207. -/
def bitonic_sort_asc2 (a0 a1 : Vec 32 8) : Option (Vec 32 8 × Vec 32 8) := do
  let r0 ← sort_8lane_4el_asc_4el_dec c gnuc k s a0
  let r0 ← finalize_asc c gnuc k s r0
  let r1 ← sort_8lane_4el_asc_4el_dec c gnuc k s a1
  let r1 ← finalize_dec c gnuc k s r1
  let mx ← vmax c k s r0 r1
  let mn ← vmin c k s r0 r1
  let r0 ← finalize_asc c gnuc k s mn
  let r1 ← finalize_asc c gnuc k s mx
  return (r0, r1)

/-- `bitonic_sort_dec(a0, a1)`. Models /repo/simdpp/algorithm/bitonic_sort.h:209-226. -/
def bitonic_sort_dec2 (a0 a1 : Vec 32 8) : Option (Vec 32 8 × Vec 32 8) := do
  let r0 ← sort_8lane_4el_dec_4el_asc c gnuc k s a0
  let r0 ← finalize_dec c gnuc k s r0
  let r1 ← sort_8lane_4el_dec_4el_asc c gnuc k s a1
  let r1 ← finalize_asc c gnuc k s r1
  let mx ← vmax c k s r0 r1
  let mn ← vmin c k s r0 r1
  let r0 ← finalize_dec c gnuc k s mx
  let r1 ← finalize_dec c gnuc k s mn
  return (r0, r1)

end Simdpp.SortLib
