import Verif.Model.ReduceAdd

/-!
# reduce_popcnt

`simdpp/detail/insn/i_reduce_popcnt.h` with the public functions of `simdpp/core/i_reduce_popcnt.h`, which reinterpret
the vector as 32-bit lanes. The result is a `uint32_t`.
-/

namespace Simdpp

variable {w n m N : Nat}

/-- `_mm_popcnt_u64(extract<0>(a64))` and `<1>`, or the four `_mm_popcnt_u32(extract<i>(a))`, added to a `uint32_t`.
Models /repo/simdpp/detail/insn/i_reduce_popcnt.h:35-46. -/
def popcntInsn128 (c : Cfg) (a : Vec 32 4) : Option (BitVec 32) :=
  if c.bits64 then do
    let a64 : Vec 64 2 := a.recast 64 2
    let x0 ← i_extract c .int false .r128 0 a64
    let x1 ← i_extract c .int false .r128 1 a64
    some (0 + (Hw.popcnt 64 x0).setWidth 32 + (Hw.popcnt 64 x1).setWidth 32)
  else do
    let x0 ← i_extract c .int false .r128 0 a
    let x1 ← i_extract c .int false .r128 1 a
    let x2 ← i_extract c .int false .r128 2 a
    let x3 ← i_extract c .int false .r128 3 a
    some (0 + Hw.popcnt 32 x0 + Hw.popcnt 32 x1 + Hw.popcnt 32 x2 + Hw.popcnt 32 x3)

open C in
/-- `uint32_t r = 0; for (i) r += el_popcnt32(a.el(i))`.
Models /repo/simdpp/detail/insn/i_reduce_popcnt.h:29-33. -/
def popcntLoop (a : Vec 32 n) : Option (BitVec 32) :=
  (loopM (fun i r => if i < n then do
      let p ← Null.el_popcnt32 (lane false (a.at_ i))
      (add r p).map (cast ⟨false, 32⟩)
    else none) 0 n ⟨⟨false, 32⟩, 0⟩).map (toLane 32)

/-- `reduce_add(popcnt((uint64<n>)a))`, converted to `uint32_t`.
Models /repo/simdpp/detail/insn/i_reduce_popcnt.h:51-53, 55-56, 72-73, 88-89. -/
def popcntSum64 (c : Cfg) (r : Reg) (a : Vec 32 n) : Option (BitVec 32) := do
  let p ← i_popcnt c r (a.recast 64 (n / 2) : Vec 64 (n / 2))
  (reduce_add_wide c p).map (BitVec.setWidth 32)

/-- `i_reduce_popcnt(uint32<4>)`. Models /repo/simdpp/detail/insn/i_reduce_popcnt.h:25-61. -/
def reduce_popcnt128 (c : Cfg) (a : Vec 32 4) : Option (BitVec 32) :=
  if c.null then popcntLoop a
  else if c.popcnt then popcntInsn128 c a
  else if c.neon then (reduce_add8 c false (Hw.vcnt (a.recast 8 16) : Vec 8 16)).map (BitVec.setWidth 32)
  else if c.vsx207 ∨ c.msa then popcntSum64 c .r128 a
  else if c.sse2 then popcntSum64 c .r128 a
  else do
    let p ← i_popcnt c .r128 a
    reduce_add_wide c p

/-- `i_reduce_popcnt(uint32<8>)`. Models /repo/simdpp/detail/insn/i_reduce_popcnt.h:63-76. -/
def reduce_popcnt256 (c : Cfg) (a : Vec 32 8) : Option (BitVec 32) :=
  if c.popcnt ∧ c.bits64 then do
    let x ← reduce_popcnt128 c (Hw.part 4 0 a)
    let y ← reduce_popcnt128 c (Hw.part 4 1 a)
    some (x + y)
  else popcntSum64 c .r256 a

/-- `i_reduce_popcnt(uint32<16>)`. Models /repo/simdpp/detail/insn/i_reduce_popcnt.h:78-92. -/
def reduce_popcnt512 (c : Cfg) (a : Vec 32 16) : Option (BitVec 32) :=
  if c.popcnt ∧ c.bits64 then do
    let x ← reduce_popcnt256 c (Hw.part 8 0 a)
    let y ← reduce_popcnt256 c (Hw.part 8 1 a)
    some (x + y)
  else popcntSum64 c .r512 a

/-- `i_reduce_popcnt` of one register. -/
def reduce_popcnt_reg (c : Cfg) (r : Reg) (a : Vec 32 n) : Option (BitVec 32) :=
  match r with
  | .r128 => reduce_popcnt128 c (Hw.part 4 0 a)
  | .r256 => if c.avx2 then reduce_popcnt256 c (Hw.part 8 0 a) else none
  | .r512 => if c.avx512f then reduce_popcnt512 c (Hw.part 16 0 a) else none

/-- One register, or `uint32_t r = 0; for (j) r += i_reduce_popcnt(a.vec(j))`.
Models /repo/simdpp/detail/insn/i_reduce_popcnt.h:94-103. -/
def reduce_popcnt32 (c : Cfg) (a : Vec 32 N) : Option (BitVec 32) :=
  if c.single 32 N then reduce_popcnt_reg c (c.regOf 32 N) a
  else
    let L := (c.fast 32).lanes 32
    loopM (fun j r => (reduce_popcnt_reg c (c.fast 32) (Hw.part L j a)).map (r + ·)) 0 (N / L) 0

/-- `reduce_popcnt(a)`: `i_reduce_popcnt(uint32<M>(a))` with `M = N*w/32`.
Models /repo/simdpp/core/i_reduce_popcnt.h:28-74. -/
def reduce_popcnt (c : Cfg) (a : Vec w N) : Option (BitVec 32) :=
  reduce_popcnt32 c (a.recast 32 (N * w / 32))

end Simdpp
