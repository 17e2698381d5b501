import Mathlib.Data.Fin.VecNotation
import Mathlib.Data.Fin.Tuple.Reflection
import Mathlib.Data.Fintype.Basic

/-!
# Bitonic sort (`simdpp/algorithm/bitonic_sort.h`)

Lanes of an 8-lane 32-bit vector are a function `Fin 8 → α`. The library's `min` and `max` are the
lane functions `mn`, `mx`; `permute4`, `shuffle4x2` and `shuffle1_128` are the lane
selections documented for those operations. `Model/SortLib.lean` is the same code built from the
library's implementations; `Props/SortLib.lean` proves the two equal on every build.
-/

namespace Simdpp.Sort

variable {α : Type}

/-- Lane `4*b + k` of a vector made of 4-lane blocks. -/
def at4 (x : Fin 8 → α) (b : Nat) (hb : b < 2) (k : Fin 4) : α := x ⟨4 * b + k.val, by omega⟩

/-- `permute4<s0,s1,s2,s3>(a)`: in each 4-lane block lane `j` is lane `s_j` of `a`.
Models the documented effect, /repo/simdpp/core/permute4.h:22-47. -/
def permute4 (s : Fin 4 → Fin 4) (x : Fin 8 → α) : Fin 8 → α :=
  fun i => at4 x (i.val / 4) (by omega) (s ⟨i.val % 4, by omega⟩)

/-- `shuffle4x2<s0,s1,s2,s3>(a, b)`: selectors 0-3 take from `a`, 4-7 from `b`, block-wise.
Models the documented effect, /repo/simdpp/core/shuffle4x2.h:21-45. -/
def shuffle4x2 (s : Fin 4 → Fin 8) (x y : Fin 8 → α) : Fin 8 → α :=
  fun i =>
    let k := s ⟨i.val % 4, by omega⟩
    if h : k.val < 4 then at4 x (i.val / 4) (by omega) ⟨k.val, h⟩
    else at4 y (i.val / 4) (by omega) ⟨k.val - 4, by omega⟩

/-- `shuffle1_128<s0,s1>(a, b)` on an 8-lane vector: the low 128 bits are block `s0` of `a`, the
high 128 bits block `s1` of `b`. Models /repo/simdpp/detail/insn/shuffle128.h. -/
def shuffle1_128 (s0 s1 : Fin 2) (x y : Fin 8 → α) : Fin 8 → α :=
  fun i => if i.val < 4 then at4 x s0.val s0.isLt ⟨i.val % 4, by omega⟩
    else at4 y s1.val s1.isLt ⟨i.val % 4, by omega⟩

variable (mn mx : α → α → α)

/-- Lane-wise `min`/`max` of two vectors. -/
def map2 (f : α → α → α) (x y : Fin 8 → α) : Fin 8 → α := fun i => f (x i) (y i)

/-- Models /repo/simdpp/algorithm/bitonic_sort.h:18-29. -/
def sort_4lane_2el_asc_2el_dec (a : Fin 8 → α) : Fin 8 → α :=
  let swapped := permute4 ![1, 0, 3, 2] a
  shuffle4x2 ![1, 4, 7, 2] (map2 mn a swapped) (map2 mx a swapped)

/-- Models /repo/simdpp/algorithm/bitonic_sort.h:31-42. -/
def sort_4lane_2el_asc_2el_asc (a : Fin 8 → α) : Fin 8 → α :=
  let swapped := permute4 ![1, 0, 3, 2] a
  shuffle4x2 ![1, 4, 2, 7] (map2 mn a swapped) (map2 mx a swapped)

/-- Models /repo/simdpp/algorithm/bitonic_sort.h:44-55. -/
def sort_4lane_2el_dec_2el_dec (a : Fin 8 → α) : Fin 8 → α :=
  let swapped := permute4 ![1, 0, 3, 2] a
  shuffle4x2 ![1, 4, 2, 7] (map2 mx a swapped) (map2 mn a swapped)

/-- Models /repo/simdpp/algorithm/bitonic_sort.h:57-67. -/
def sort_4lane_corresponding_2el_asc (a : Fin 8 → α) : Fin 8 → α :=
  let swapped := permute4 ![2, 3, 0, 1] a
  shuffle4x2 ![0, 1, 4, 5] (map2 mn a swapped) (map2 mx a swapped)

/-- Models /repo/simdpp/algorithm/bitonic_sort.h:69-79. -/
def sort_4lane_corresponding_2el_dec (a : Fin 8 → α) : Fin 8 → α :=
  let swapped := permute4 ![2, 3, 0, 1] a
  shuffle4x2 ![0, 1, 4, 5] (map2 mx a swapped) (map2 mn a swapped)

/-- Models /repo/simdpp/algorithm/bitonic_sort.h:81-92. -/
def sort_8lane_corresponding_4el_asc (a : Fin 8 → α) : Fin 8 → α :=
  let lo := shuffle1_128 0 0 a a
  let hi := shuffle1_128 1 1 a a
  shuffle1_128 0 0 (map2 mn lo hi) (map2 mx lo hi)

/-- Models /repo/simdpp/algorithm/bitonic_sort.h:94-105. -/
def sort_8lane_corresponding_4el_dec (a : Fin 8 → α) : Fin 8 → α :=
  let lo := shuffle1_128 0 0 a a
  let hi := shuffle1_128 1 1 a a
  shuffle1_128 0 0 (map2 mx lo hi) (map2 mn lo hi)

/-- Models /repo/simdpp/algorithm/bitonic_sort.h:107-115. -/
def reverse_8lane_top4 (a : Fin 8 → α) : Fin 8 → α :=
  shuffle1_128 0 1 a (permute4 ![3, 2, 1, 0] a)

/-- Models /repo/simdpp/algorithm/bitonic_sort.h:117-125. -/
def reverse_8lane_bottom4 (a : Fin 8 → α) : Fin 8 → α :=
  shuffle1_128 0 1 (permute4 ![3, 2, 1, 0] a) a

/-- Models /repo/simdpp/algorithm/bitonic_sort.h:127-137. -/
def sort_8lane_4el_asc_4el_dec (a : Fin 8 → α) : Fin 8 → α :=
  reverse_8lane_top4 (sort_4lane_2el_asc_2el_asc mn mx
    (sort_4lane_corresponding_2el_asc mn mx (sort_4lane_2el_asc_2el_dec mn mx a)))

/-- Models /repo/simdpp/algorithm/bitonic_sort.h:139-149. -/
def sort_8lane_4el_dec_4el_asc (a : Fin 8 → α) : Fin 8 → α :=
  reverse_8lane_bottom4 (sort_4lane_2el_asc_2el_asc mn mx
    (sort_4lane_corresponding_2el_asc mn mx (sort_4lane_2el_asc_2el_dec mn mx a)))

/-- Models /repo/simdpp/algorithm/bitonic_sort.h:151-159. -/
def finalize_asc (a : Fin 8 → α) : Fin 8 → α :=
  sort_4lane_2el_asc_2el_asc mn mx (sort_4lane_corresponding_2el_asc mn mx
    (sort_8lane_corresponding_4el_asc mn mx a))

/-- Models /repo/simdpp/algorithm/bitonic_sort.h:161-169. -/
def finalize_dec (a : Fin 8 → α) : Fin 8 → α :=
  sort_4lane_2el_dec_2el_dec mn mx (sort_4lane_corresponding_2el_dec mn mx
    (sort_8lane_corresponding_4el_dec mn mx a))

/-- `bitonic_sort_asc(a0)`. Models /repo/simdpp/algorithm/bitonic_sort.h:175-180. -/
def bitonic_sort_asc (a : Fin 8 → α) : Fin 8 → α :=
  finalize_asc mn mx (sort_8lane_4el_asc_4el_dec mn mx a)

/-- `bitonic_sort_dec(a0)`. Models /repo/simdpp/algorithm/bitonic_sort.h:182-187. -/
def bitonic_sort_dec (a : Fin 8 → α) : Fin 8 → α :=
  finalize_dec mn mx (sort_8lane_4el_dec_4el_asc mn mx a)

/-- `bitonic_sort_asc(a0, a1)`. Models /repo/simdpp/algorithm/bitonic_sort.h:190-207. -/
def bitonic_sort_asc2 (a0 a1 : Fin 8 → α) : (Fin 8 → α) × (Fin 8 → α) :=
  let r0 := finalize_asc mn mx (sort_8lane_4el_asc_4el_dec mn mx a0)
  let r1 := finalize_dec mn mx (sort_8lane_4el_asc_4el_dec mn mx a1)
  (finalize_asc mn mx (map2 mn r0 r1), finalize_asc mn mx (map2 mx r0 r1))

/-- `bitonic_sort_dec(a0, a1)`. Models /repo/simdpp/algorithm/bitonic_sort.h:209-226. -/
def bitonic_sort_dec2 (a0 a1 : Fin 8 → α) : (Fin 8 → α) × (Fin 8 → α) :=
  let r0 := finalize_dec mn mx (sort_8lane_4el_dec_4el_asc mn mx a0)
  let r1 := finalize_asc mn mx (sort_8lane_4el_dec_4el_asc mn mx a1)
  (finalize_dec mn mx (map2 mx r0 r1), finalize_dec mn mx (map2 mn r0 r1))

end Simdpp.Sort
