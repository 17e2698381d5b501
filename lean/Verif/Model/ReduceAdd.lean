import Verif.Model.Reduce
import Verif.Model.Mul
import Verif.Model.Popcnt

/-!
# reduce_add, reduce_popcnt

`simdpp/detail/insn/i_reduce_add.h`, `i_reduce_popcnt.h` and the public functions of `simdpp/core/i_reduce_add.h`,
`i_reduce_popcnt.h`. The result has 16 bits for 8-bit lanes, 32 bits for 16- and 32-bit lanes and 64 bits for 64-bit
lanes; `sg` selects the signed vectors.
-/

namespace Simdpp

variable {w n m N : Nat}

namespace Hw

/-- `vpaddl`, and `hadd_s/u` of MSA: lane `i` is the sum of extended lanes `2i` and `2i+1` of the operands (MSA takes
the odd lane from the first and the even lane from the second operand). -/
def hadd2 (sg : Bool) (v : Nat) (a b : Vec w n) : Vec v m := fun i =>
  extLane sg v (a.at_ (2 * i.val + 1)) + extLane sg v (b.at_ (2 * i.val))
/-- `vphadd{b,w,ub,uw}q` (XOP): 64-bit lane `i` is the sum of the `64/w` extended lanes it overlays. -/
def haddq (sg : Bool) (a : Vec w n) : Vec 64 m := fun i =>
  (List.range (64 / w)).foldl (fun t j => t + extLane sg 64 (a.at_ (64 / w * i.val + j))) 0
/-- `pmaddwd`: 32-bit lane `i` is `a[2i]*b[2i] + a[2i+1]*b[2i+1]` on sign-extended lanes. -/
def madd (a b : Vec 16 n) : Vec 32 m := fun i =>
  (a.at_ (2 * i.val)).signExtend 32 * (b.at_ (2 * i.val)).signExtend 32 +
    (a.at_ (2 * i.val + 1)).signExtend 32 * (b.at_ (2 * i.val + 1)).signExtend 32
/-- `vec_sum4s`: lane `i` is `b[i]` plus the lanes of `a` it overlays, saturated to the 32-bit type. -/
def sum4s (sg : Bool) (a : Vec w n) (b : Vec 32 m) : Vec 32 m := fun i =>
  BitVec.ofInt 32 (Spec.clamp sg 32 ((List.range (32 / w)).foldl (fun t j => t + Spec.val sg (a.at_ (32 / w * i.val + j)))
    (Spec.val sg (b i))))

end Hw

/-- `bit_xor(a, 0x80)`, `bit_xor(a, 0x8000)` on the register `r` is `xorBias` (`MinMax.lean`). The number of result
bits. Models /repo/simdpp/detail/insn/i_reduce_add.h:25-40. -/
def addW (w : Nat) : Nat := if w = 8 then 16 else if w = 16 then 32 else w

open C in
/-- The portable loops: `T r = init; for ... r += a.el(i)` with `T` the result type `uint16_t`, `int16_t`, `uint32_t`,
`int32_t` or `uint64_t`. One register starts from `a.el(0)` and index 1; an array starts from 0 and index 0 and visits
the lanes in order. `s` is the signedness of the elements and `t` that of `T`.
Models /repo/simdpp/detail/insn/i_reduce_add.h:49-53, 104-110, 176-180, 228-234, 285-289, 349-355, 431-435, 487-493,
560-564, 601-607, 623-627, 663-669. -/
def addLoop (s t : Bool) (W : Nat) (start : Nat) (a : Vec w n) : Option (BitVec W) :=
  let init : Val := if start = 0 then ⟨⟨t, W⟩, 0⟩ else cast ⟨t, W⟩ (lane s (a.at_ 0))
  (loopM (fun i r => if i < n then (add r (lane s (a.at_ i))).map (cast ⟨t, W⟩) else none) start (n - start) init).map
    (toLane W)

/-- `extract<0>(sum) + extract<4>(sum)` of a `uint16x8`: the two `uint16_t` are added as `int` and converted back.
Models /repo/simdpp/detail/insn/i_reduce_add.h:56, 59, 88, 125, 136, 183, 243. -/
def sum04 (c : Cfg) (v : Vec 16 n) : Option (BitVec 16) := do
  let x ← i_extract c .int false .r128 0 v
  let y ← i_extract c .int false .r128 4 v
  some (x + y)

/-- `sum = add(sum, move4_l<s>(sum))` for each `s`, then `extract<0>(sum)`.
Models e.g. /repo/simdpp/detail/insn/i_reduce_add.h:70-72, 77-78. -/
def addMoves (c : Cfg) (sg : Bool) (ss : List Nat) (v : Vec 32 n) : Option (BitVec 32) := do
  let r ← redTree c (i_iadd c .r128) ss v
  i_extract c .int sg .r128 0 r

/-- `vadd_u32(vget_low_u32(a), vget_high_u32(a))`, lane 0.
Models /repo/simdpp/detail/insn/i_reduce_add.h:65-66, 146-148, 191-193, 255-257, 306-308, 401-403, 448-449. -/
def vaddHalves (v : Vec 32 n) : BitVec 32 := v.at_ 0 + v.at_ (n / 2)

/-! ## 32- and 64-bit lanes -/

/-- `i_reduce_add` of one 128-bit register of 32- or 64-bit lanes.
Models /repo/simdpp/detail/insn/i_reduce_add.h:556-576, 619-639. -/
def i_reduce_add128 (c : Cfg) (a : Vec w (Reg.r128.lanes w)) : Option (BitVec w) :=
  if c.null then addLoop false false w 1 a
  else if w = 32 then
    if c.msa then
      (addMoves c false [2] ((Hw.hadd2 (m := 2) false 64 a a).recast 32 4)).map (BitVec.setWidth w)
    else redTree0 c false (i_iadd c .r128) a
  else
    if c.sse2 then redTree0 c false (i_iadd c .r128) a
    else if c.neon then some (a.at_ 0 + a.at_ 1)
    else if c.altivec ∨ c.msa then do
      let x ← i_extract c .int false .r128 0 a
      let y ← i_extract c .int false .r128 1 a
      some (x + y)
    else none

/-- `i_reduce_add(add(extract<0>(a), extract<1>(a)))` for wider registers; `uint32v sum = 0; sum = add(sum, a.vec(j))`
for arrays. Models /repo/simdpp/detail/insn/i_reduce_add.h:578-617, 641-680 and the casts of int32, int64 to unsigned in
/repo/simdpp/core/i_reduce_add.h:47-71. -/
def reduce_add_wide (c : Cfg) (a : Vec w N) : Option (BitVec w) :=
  if c.single w N then redReg c (fun r => i_iadd c r) (i_reduce_add128 c) (c.regOf w N) a
  else if c.null ∨ (w = 64 ∧ c.altivec ∧ ¬ c.vsx207) then addLoop false false w 0 a
  else do
    let r ← loopM (fun j r => i_iadd c (c.fast w) r (Hw.part ((c.fast w).lanes w) j a)) 0 (N / (c.fast w).lanes w) (Vec.splat 0)
    redReg c (fun r => i_iadd c r) (i_reduce_add128 c) (c.fast w) r

/-! ## 8-bit lanes -/

/-- `for (j) r = add(r, f(a.vec(j)))` from `r = make_zero()`; `a.vec(j)` is `get j`. -/
def accAdd {v L : Nat} (c : Cfg) (r : Reg) (get : Nat → Option (Vec w L)) (f : Vec w L → Vec v m) (K : Nat) :
    Option (Vec v m) :=
  loopM (fun j acc => do
    let x ← get j
    i_iadd c r acc (f x)) 0 K (Vec.splat 0)

/-- `sum = vec_sum4s(a.vec(j), sum)` from `sum = make_zero()`. -/
def accSum4 {L : Nat} (sg : Bool) (get : Nat → Option (Vec w L)) (K : Nat) : Option (Vec 32 m) :=
  loopM (fun j acc => do
    let x ← get j
    some (Hw.sum4s sg x acc)) 0 K (Vec.splat 0)

/-- `psadbw` or `vphaddubq`/`vphaddbq`, as `uint16x8`. -/
def sad16 (c : Cfg) (sg : Bool) (x : Vec 8 n) : Vec 16 (n / 2) :=
  if c.xop then (Hw.haddq (m := n / 8) sg x).recast 16 (n / 2) else (Hw.sad (m := n / 8) x).recast 16 (n / 2)

/-- `i_reduce_add(uint8x16)` and, on the backends that have it, `i_reduce_add(int8x16)` without bias.
Models /repo/simdpp/detail/insn/i_reduce_add.h:45-80, 172-183, 186-207. -/
def reduce_add8_128 (c : Cfg) (sg : Bool) (a : Vec 8 16) : Option (BitVec 16) :=
  if c.null then addLoop sg sg 16 1 a
  else if c.sse2 then sum04 c (sad16 c sg a)
  else if c.neon then
    let a2 : Vec 16 8 := Hw.hadd2 sg 16 a a
    let a3 : Vec 32 4 := Hw.hadd2 sg 32 a2 a2
    let a4 : Vec 64 2 := Hw.hadd2 sg 64 a3 a3
    some ((vaddHalves (a4.recast 32 4)).setWidth 16)
  else if c.altivec then (addMoves c sg [2, 1] (Hw.sum4s sg a (Vec.splat 0 : Vec 32 4))).map (BitVec.setWidth 16)
  else if c.msa then
    let a2 : Vec 16 8 := Hw.hadd2 sg 16 a a
    let a3 : Vec 32 4 := Hw.hadd2 sg 32 a2 a2
    let a4 : Vec 64 2 := Hw.hadd2 sg 64 a3 a3
    (addMoves c sg [2] (a4.recast 32 4)).map (BitVec.setWidth 16)
  else none

/-- `i_reduce_add(uint8x32)` (AVX2). Models /repo/simdpp/detail/insn/i_reduce_add.h:82-90. -/
def reduce_add8_256 (c : Cfg) (a : Vec 8 32) : Option (BitVec 16) := do
  let sum2 : Vec 16 16 := (Hw.sad (m := 4) a).recast 16 16
  let sum ← i_iadd c .r128 (Hw.part 8 0 sum2) (Hw.part 8 1 sum2)
  sum04 c sum

/-- `i_reduce_add(uint8<64>)` (AVX-512BW). Models /repo/simdpp/detail/insn/i_reduce_add.h:92-98. -/
def reduce_add8_512 (c : Cfg) (a : Vec 8 64) : Option (BitVec 16) :=
  (reduce_add_wide c (Hw.sad (m := 8) a)).map (BitVec.setWidth 16)

/-- `i_reduce_add` of one register of 8-bit lanes with the sign bit already flipped where the code flips it. -/
def reduce_add8_reg (c : Cfg) (sg : Bool) (r : Reg) (a : Vec 8 n) : Option (BitVec 16) :=
  match r with
  | .r128 => reduce_add8_128 c sg (Hw.part 16 0 a)
  | .r256 => if c.avx2 then reduce_add8_256 c (Hw.part 32 0 a) else none
  | .r512 => if c.avx512bw then reduce_add8_512 c (Hw.part 64 0 a) else none

/-- `i_reduce_add` of an array of registers of 8-bit lanes; `get j` is `a.vec(j)` with the sign bit flipped where the
code flips it. Under AVX-512BW the code calls `a.native()` on the array, which has no such member: it does not compile.
Models /repo/simdpp/detail/insn/i_reduce_add.h:100-168, 224-277. -/
def reduce_add8_arr (c : Cfg) (sg : Bool) (get : Nat → Option (Vec 8 ((c.fast 8).lanes 8))) (K : Nat) :
    Option (BitVec 16) :=
  if c.avx512bw then none
  else if c.avx2 then do
    let r ← accAdd (m := 16) c .r256 get (fun x => (Hw.sad (m := 4) x).recast 16 16) K
    let rl ← i_iadd c .r128 (Hw.part 8 0 r) (Hw.part 8 1 r)
    sum04 c rl
  else if c.sse2 then do
    let r ← accAdd c .r128 get (sad16 c sg) K
    sum04 c r
  else if c.neon then do
    let r ← accAdd (m := 8) c .r128 get (fun x => Hw.hadd2 sg 16 x x) K
    let r2 : Vec 32 4 := Hw.hadd2 sg 32 r r
    let r3 : Vec 64 2 := Hw.hadd2 sg 64 r2 r2
    some ((vaddHalves (r3.recast 32 4)).setWidth 16)
  else if c.altivec then do
    let sum ← accSum4 (m := 4) sg get K
    (addMoves c sg [2, 1] sum).map (BitVec.setWidth 16)
  else if c.msa then do
    let r ← accAdd (m := 8) c .r128 get (fun x => Hw.hadd2 sg 16 x x) K
    let r2 : Vec 32 4 := Hw.hadd2 sg 32 r r
    let r3 : Vec 64 2 := Hw.hadd2 sg 64 r2 r2
    (addMoves c sg [2] (r3.recast 32 4)).map (BitVec.setWidth 16)
  else none

/-- Does `reduce_add(int8<N>)` flip the sign bits, add as unsigned and subtract `a.length * 0x80`?
Models /repo/simdpp/detail/insn/i_reduce_add.h:181-185, 209-222, 235-245. -/
def bias8 (c : Cfg) (r : Reg) : Bool := c.sse2 && (r != .r128 || !c.xop)

/-- `reduce_add` of 8-bit lanes. Models /repo/simdpp/core/i_reduce_add.h:29-39 with the overloads above. -/
def reduce_add8 (c : Cfg) (sg : Bool) (a : Vec 8 N) : Option (BitVec 16) :=
  let L := (c.fast 8).lanes 8
  if c.single 8 N then
    if sg ∧ bias8 c (c.regOf 8 N) then do
      let ca ← xorBias c (c.regOf 8 N) a
      let s ← reduce_add8_reg c false (c.regOf 8 N) ca
      some (s - BitVec.ofNat 16 (N * 0x80))
    else reduce_add8_reg c sg (c.regOf 8 N) a
  else if c.null then addLoop sg false 16 0 a
  else if sg ∧ bias8 c (c.fast 8) then do
    let s ← reduce_add8_arr c false (fun j => xorBias c (c.fast 8) (Hw.part L j a)) (N / L)
    some (s - BitVec.ofNat 16 (N * 0x80))
  else reduce_add8_arr c sg (fun j => some (Hw.part L j a)) (N / L)

/-! ## 16-bit lanes -/

/-- `i_reduce_add` of one 128-bit register of 16-bit lanes. Unsigned lanes flip the sign bit on SSE2 and AltiVec.
Models /repo/simdpp/detail/insn/i_reduce_add.h:281-322, 427-462. -/
def reduce_add16_128 (c : Cfg) (sg : Bool) (a : Vec 16 8) : Option (BitVec 32) :=
  if c.null then addLoop sg sg 32 1 a
  else if c.xop then addMoves c sg [2] ((Hw.haddq (m := 2) sg a).recast 32 4)
  else if c.sse2 then
    if sg then reduce_add_wide c (Hw.madd (m := 4) a (Vec.splat 1))
    else do
      let ca ← xorBias c .r128 a
      let s ← addMoves c false [2, 1] (Hw.madd (m := 4) ca (Vec.splat 1))
      some (s + BitVec.ofNat 32 (0x8000 * 8))
  else if c.neon then
    let a2 : Vec 32 4 := Hw.hadd2 sg 32 a a
    let a3 : Vec 64 2 := Hw.hadd2 sg 64 a2 a2
    some (vaddHalves (a3.recast 32 4))
  else if c.altivec then
    if sg then addMoves c true [2, 1] (Hw.sum4s true a (Vec.splat 0 : Vec 32 4))
    else do
      let ca ← xorBias c .r128 a
      let s ← addMoves c true [2, 1] (Hw.sum4s true ca (Vec.splat 0 : Vec 32 4))
      some (s + BitVec.ofNat 32 (0x8000 * 8))
  else if c.msa then
    let a2 : Vec 32 4 := Hw.hadd2 sg 32 a a
    let a3 : Vec 64 2 := Hw.hadd2 sg 64 a2 a2
    addMoves c sg [2] (a3.recast 32 4)
  else none

/-- The AVX2 and AVX-512BW overloads: `pmaddwd` with ones, `reduce_add` of the 32-bit lanes, bias for unsigned lanes.
Models /repo/simdpp/detail/insn/i_reduce_add.h:324-343, 464-481. -/
def reduce_add16_wide (c : Cfg) (sg : Bool) (r : Reg) (a : Vec 16 n) : Option (BitVec 32) :=
  if sg then reduce_add_wide c (Hw.madd (m := n / 2) a (Vec.splat 1))
  else do
    let ca ← xorBias c r a
    let s ← reduce_add_wide c (Hw.madd (m := n / 2) ca (Vec.splat 1))
    some (s + BitVec.ofNat 32 (0x8000 * n))

/-- Arrays of 16-bit lanes. Models /repo/simdpp/detail/insn/i_reduce_add.h:345-423, 483-552. -/
def reduce_add16_arr (c : Cfg) (sg : Bool) (a : Vec 16 N) : Option (BitVec 32) :=
  let L := (c.fast 16).lanes 16
  let get (j : Nat) : Option (Vec 16 L) := some (Hw.part L j a)
  let getX (j : Nat) : Option (Vec 16 L) := xorBias c (c.fast 16) (Hw.part L j a)
  let K := N / L
  if c.null then addLoop sg sg 32 0 a
  else if c.avx2 then
    if sg then do
      let sum ← accAdd (m := L / 2) c (c.fast 16) get (fun x => Hw.madd x (Vec.splat 1)) K
      reduce_add_wide c sum
    else do
      let sum ← accAdd (m := L / 2) c (c.fast 16) getX (fun x => Hw.madd x (Vec.splat 1)) K
      let s ← reduce_add_wide c sum
      some (s + BitVec.ofNat 32 (0x8000 * N))
  else if c.xop then do
    let sum ← accAdd (m := 4) c .r128 get (fun x => (Hw.haddq (m := 2) sg x).recast 32 4) K
    addMoves c sg [2] sum
  else if c.sse2 then
    if sg then do
      let sum ← accAdd (m := 4) c .r128 get (fun x => Hw.madd x (Vec.splat 1)) K
      reduce_add_wide c sum
    else do
      let sum ← accAdd (m := 4) c .r128 getX (fun x => Hw.madd x (Vec.splat 1)) K
      let s ← addMoves c false [2, 1] sum
      some (s + BitVec.ofNat 32 (0x8000 * N))
  else if c.neon then do
    let sum ← accAdd (m := 4) c .r128 get (fun x => Hw.hadd2 sg 32 x x) K
    if sg then reduce_add_wide c sum
    else
      let sum2 : Vec 64 2 := Hw.hadd2 false 64 sum sum
      some (vaddHalves (sum2.recast 32 4))
  else if c.altivec then
    if sg then do
      let sum ← accSum4 (m := 4) true get K
      reduce_add_wide c sum
    else do
      let sum ← accSum4 (m := 4) true getX K
      let s ← addMoves c true [2, 1] sum
      some (s + BitVec.ofNat 32 (0x8000 * N))
  else if c.msa then do
    let r ← accAdd (m := 4) c .r128 get (fun x => Hw.hadd2 sg 32 x x) K
    let r2 : Vec 64 2 := Hw.hadd2 sg 64 r r
    addMoves c sg [2] (r2.recast 32 4)
  else none

/-- `reduce_add` of 16-bit lanes. Models /repo/simdpp/core/i_reduce_add.h:41-51 with the overloads above. -/
def reduce_add16 (c : Cfg) (sg : Bool) (a : Vec 16 N) : Option (BitVec 32) :=
  if c.single 16 N then
    match c.regOf 16 N with
    | .r128 => reduce_add16_128 c sg (Hw.part 8 0 a)
    | .r256 => if c.avx2 then reduce_add16_wide c sg .r256 (Hw.part 16 0 a) else none
    | .r512 => if c.avx512bw then reduce_add16_wide c sg .r512 (Hw.part 32 0 a) else none
  else reduce_add16_arr c sg a

end Simdpp
