import Verif.Model.Mul
import Verif.Model.Lanes

/-!
# Population count

`simdpp/detail/insn/i_popcnt.h`, `simdpp/detail/null/bitwise.h` and the wrappers `simdpp/core/i_popcnt.h`
(which reinterpret signed vectors as unsigned).
-/

namespace Simdpp
open Sh

variable {w v n N : Nat}

namespace Hw

/-- Number of set bits of one lane. -/
def bitCount (x : BitVec w) : Nat := (List.range w).foldl (fun s k => s + (x.getLsbD k).toNat) 0
/-- `_mm_popcnt_u32`, `_mm_popcnt_u64`. -/
def popcnt (v : Nat) (x : BitVec w) : BitVec v := BitVec.ofNat v (bitCount x)
/-- `vcntq_u8`, `vec_vpopcnt`, `__msa_pcnt_{b,h,w,d}`. -/
def vcnt (a : Vec w n) : Vec w n := fun i => popcnt w (a i)
/-- `vpaddlq_u{8,16,32}`: sums of neighbouring lanes, widened. -/
def vpaddl {m : Nat} (a : Vec w n) : Vec (2 * w) m := fun i => (a.at_ (2 * i.val)).setWidth (2 * w) + (a.at_ (2 * i.val + 1)).setWidth (2 * w)
/-- `_mm*_sad_epu8(a, 0)`: sums of the bytes of each 64-bit lane. -/
def sad {m : Nat} (a : Vec 8 n) : Vec 64 m := fun i =>
  (List.range 8).foldl (fun s t => s + (a.at_ (8 * i.val + t)).setWidth 64) 0

end Hw

/-! ## Portable code -/

namespace Null
open C

/-- The first three statements, common to `el_popcnt8`, `16`, `32` and `64`, on a variable of type `uintW_t`.
Models /repo/simdpp/detail/null/bitwise.h:169-210. -/
def swar (w : Nat) (m55 m33 m0f : Nat) (x : Val) : Option Val := do
  let U : Ty := ⟨false, w⟩
  let t ← C.shr x ⟨int32, 1⟩
  let x := C.cast U (← C.sub x (C.band t ⟨U, m55⟩))
  let t ← C.shr x ⟨int32, 2⟩
  let x := C.cast U (← C.add (C.band x ⟨U, m33⟩) (C.band t ⟨U, m33⟩))
  let t ← C.shr x ⟨int32, 4⟩
  some (C.cast U (C.band (← C.add x t) ⟨U, m0f⟩))

/-- `el_popcnt8`. Models /repo/simdpp/detail/null/bitwise.h:168-178. -/
def el_popcnt8 (x : Val) : Option Val := swar 8 0x55 0x33 0x0f x

/-- `el_popcnt16`. Models /repo/simdpp/detail/null/bitwise.h:180-192. -/
def el_popcnt16 (x : Val) : Option Val := do
  let x ← swar 16 0x5555 0x3333 0x0f0f x
  let t ← C.shr x ⟨int32, 8⟩
  let x := C.cast ⟨false, 16⟩ (← C.add x t)
  some (C.cast ⟨false, 16⟩ (C.band x ⟨int32, 0x00ff⟩))

/-- `el_popcnt32`. Models /repo/simdpp/detail/null/bitwise.h:194-206. -/
def el_popcnt32 (x : Val) : Option Val := do
  let x ← swar 32 0x55555555 0x33333333 0x0f0f0f0f x
  let t ← C.mul x ⟨int32, 0x01010101⟩
  some (C.cast ⟨false, 32⟩ (← C.shr t ⟨int32, 24⟩))

/-- `el_popcnt64`. Models /repo/simdpp/detail/null/bitwise.h:208-220. -/
def el_popcnt64 (x : Val) : Option Val := do
  let x ← swar 64 0x5555555555555555 0x3333333333333333 0x0f0f0f0f0f0f0f0f x
  let t ← C.mul x ⟨int64, 0x0101010101010101⟩
  some (C.cast ⟨false, 64⟩ (← C.shr t ⟨int32, 56⟩))

/-- `r.el(i) = el_popcntW(a.el(i))`.
Models /repo/simdpp/detail/insn/i_popcnt.h:54-58, 110-114, 173-177, 245-249. -/
def popcnt (f : Val → Option Val) (a : Vec w n) : Option (Vec w n) :=
  lanesM fun i => (f (C.lane false (a i))).map (C.toLane w)

end Null

/-! ## Emulation -/

/-- The first three statements, common to the four `v_emul_popcnt_*`.
Models /repo/simdpp/detail/insn/i_popcnt.h:40-46, 92-100, 149-155, 225-233. -/
def emulSwar (c : Cfg) (r : Reg) (m55 m33 m0f : BitVec w) (p : Vec w n) : Option (Vec w n) := do
  let t ← shift_r_imm c false r 1 p
  let t ← i_bit_and c .int r t (Vec.splat m55)
  let p ← i_isub c r p t
  let u ← i_bit_and c .int r p (Vec.splat m33)
  let t ← shift_r_imm c false r 2 p
  let t ← i_bit_and c .int r t (Vec.splat m33)
  let p ← i_iadd c r u t
  let t ← shift_r_imm c false r 4 p
  let t ← i_iadd c r p t
  i_bit_and c .int r t (Vec.splat m0f)

/-- `p = add(p, shift_r<s>(p))` -/
def addShr (c : Cfg) (r : Reg) (s : Nat) (p : Vec w n) : Option (Vec w n) := do
  let t ← shift_r_imm c false r s p
  i_iadd c r p t

/-- `v_emul_popcnt_u8`. Models /repo/simdpp/detail/insn/i_popcnt.h:32-48. -/
def emul_popcnt_u8 (c : Cfg) (r : Reg) (a : Vec 8 n) : Option (Vec 8 n) := do
  let p ← emulSwar c r 0x5555 0x3333 0x0f0f (a.recast 16 (n / 2) : Vec 16 (n / 2))
  some (p.recast 8 n)

/-- `v_emul_popcnt_u16`. Models /repo/simdpp/detail/insn/i_popcnt.h:88-104. -/
def emul_popcnt_u16 (c : Cfg) (r : Reg) (a : Vec 16 n) : Option (Vec 16 n) := do
  let p ← emulSwar c r 0x5555 0x3333 0x0f0f a
  let p ← addShr c r 8 p
  i_bit_and c .int r p (Vec.splat 0x00ff)

/-- `v_emul_popcnt_u32`. Models /repo/simdpp/detail/insn/i_popcnt.h:145-167. -/
def emul_popcnt_u32 (c : Cfg) (r : Reg) (a : Vec 32 n) : Option (Vec 32 n) := do
  let p ← emulSwar c r 0x55555555 0x33333333 0x0f0f0f0f a
  if c.sse41 ∨ c.neon ∨ c.msa then do
    let p ← i_mul_lo32 c r p (Vec.splat 0x01010101)
    shift_r_imm c false r 24 p
  else do
    let p ← addShr c r 8 p
    let p ← addShr c r 16 p
    i_bit_and c .int r p (Vec.splat 0x000000ff)

/-- `v_emul_popcnt_u64`. Models /repo/simdpp/detail/insn/i_popcnt.h:221-239. -/
def emul_popcnt_u64 (c : Cfg) (r : Reg) (a : Vec 64 n) : Option (Vec 64 n) := do
  let p ← emulSwar c r 0x5555555555555555 0x3333333333333333 0x0f0f0f0f0f0f0f0f a
  let p ← addShr c r 8 p
  let p ← addShr c r 16 p
  let p ← addShr c r 32 p
  i_bit_and c .int r p (Vec.splat 0x00000000000000ff)

/-! ## Overloads -/

/-- `i_popcnt(uint8<N>)`. Models /repo/simdpp/detail/insn/i_popcnt.h:50-84. -/
def i_popcnt8 (c : Cfg) (r : Reg) (a : Vec 8 n) : Option (Vec 8 n) :=
  match r with
  | .r128 =>
    if c.null then Null.popcnt Null.el_popcnt8 a
    else if c.neon ∨ c.vsx207 ∨ c.msa then some (Hw.vcnt a)
    else emul_popcnt_u8 c .r128 a
  | .r256 => if c.avx2 then emul_popcnt_u8 c .r256 a else none
  | .r512 => if c.avx512bw then emul_popcnt_u8 c .r512 a else none

/-- `i_popcnt(uint16<N>)`. Models /repo/simdpp/detail/insn/i_popcnt.h:106-141. -/
def i_popcnt16 (c : Cfg) (r : Reg) (a : Vec 16 n) : Option (Vec 16 n) :=
  match r with
  | .r128 =>
    if c.null then Null.popcnt Null.el_popcnt16 a
    else if c.neon then some (Hw.vpaddl (Hw.vcnt (a.recast 8 (2 * n) : Vec 8 (2 * n))))
    else if c.vsx207 ∨ c.msa then some (Hw.vcnt a)
    else emul_popcnt_u16 c .r128 a
  | .r256 => if c.avx2 then emul_popcnt_u16 c .r256 a else none
  | .r512 => if c.avx512bw then emul_popcnt_u16 c .r512 a else none

/-- `i_popcnt(uint32<N>)`. Models /repo/simdpp/detail/insn/i_popcnt.h:169-217. -/
def i_popcnt32 (c : Cfg) (r : Reg) (a : Vec 32 n) : Option (Vec 32 n) :=
  match r with
  | .r128 =>
    if c.null then Null.popcnt Null.el_popcnt32 a
    else if c.popcnt then do
      let a0 := Hw.popcnt 32 (← i_extract c .int false .r128 0 a)
      let a1 := Hw.popcnt 32 (← i_extract c .int false .r128 1 a)
      let a2 := Hw.popcnt 32 (← i_extract c .int false .r128 2 a)
      let a3 := Hw.popcnt 32 (← i_extract c .int false .r128 3 a)
      let r : Vec 16 (Reg.r128.lanes 16) := (Hw.ofLow a0 : Vec 32 4).recast 16 _
      let r ← i_insert c .int .r128 2 r (a1.setWidth 16)
      let r ← i_insert c .int .r128 4 r (a2.setWidth 16)
      let r ← i_insert c .int .r128 6 r (a3.setWidth 16)
      some (r.recast 32 n)
    else if c.neon then
      let p16 : Vec 16 (2 * n) := Hw.vpaddl (Hw.vcnt (a.recast 8 (4 * n) : Vec 8 (4 * n)))
      some (Hw.vpaddl p16)
    else if c.vsx207 ∨ c.msa then some (Hw.vcnt a)
    else emul_popcnt_u32 c .r128 a
  | .r256 => if c.avx2 then emul_popcnt_u32 c .r256 a else none
  | .r512 => if c.avx512f then emul_popcnt_u32 c .r512 a else none

/-- `i_popcnt(uint64<2>)`. Models /repo/simdpp/detail/insn/i_popcnt.h:241-280. -/
def i_popcnt64_128 (c : Cfg) (a : Vec 64 n) : Option (Vec 64 n) :=
  if c.null then Null.popcnt Null.el_popcnt64 a
  else if c.popcnt then do
    let a0 : BitVec 32 ←
      if c.bits64 then (i_extract c .int false .r128 0 a).map (Hw.popcnt 32)
      else (i_extract c .int false .r128 0 (a.recast 32 (2 * n) : Vec 32 (2 * n))).bind fun x =>
        (i_extract c .int false .r128 1 (a.recast 32 (2 * n) : Vec 32 (2 * n))).map fun y => Hw.popcnt 32 x + Hw.popcnt 32 y
    let a1 : BitVec 32 ←
      if c.bits64 then (i_extract c .int false .r128 1 a).map (Hw.popcnt 32)
      else (i_extract c .int false .r128 2 (a.recast 32 (2 * n) : Vec 32 (2 * n))).bind fun x =>
        (i_extract c .int false .r128 3 (a.recast 32 (2 * n) : Vec 32 (2 * n))).map fun y => Hw.popcnt 32 x + Hw.popcnt 32 y
    let r : Vec 16 (Reg.r128.lanes 16) := (Hw.ofLow a0 : Vec 32 4).recast 16 _
    let r ← i_insert c .int .r128 4 r (a1.setWidth 16)
    some (r.recast 64 n)
  else if c.sse2 then (emul_popcnt_u8 c .r128 (a.recast 8 (8 * n) : Vec 8 (8 * n))).map Hw.sad
  else if c.neon then
    let p16 : Vec 16 (4 * n) := Hw.vpaddl (Hw.vcnt (a.recast 8 (8 * n) : Vec 8 (8 * n)))
    let p32 : Vec 32 (2 * n) := Hw.vpaddl p16
    some (Hw.vpaddl p32)
  else if c.vsx207 ∨ c.msa then some (Hw.vcnt a)
  else emul_popcnt_u64 c .r128 a

/-- `i_popcnt(uint64<N>)`; `split` and `combine` of the halves of a 256-bit register are `Hw.part` and `catM`.
Models /repo/simdpp/detail/insn/i_popcnt.h:241-311. -/
def i_popcnt64 (c : Cfg) (r : Reg) (a : Vec 64 n) : Option (Vec 64 n) :=
  match r with
  | .r128 => i_popcnt64_128 c a
  | .r256 =>
    if c.avx2 then
      if c.popcnt ∧ c.bits64 then catM 2 (fun p => i_popcnt64_128 c (Hw.part 2 p a))
      else (emul_popcnt_u8 c .r256 (a.recast 8 (8 * n) : Vec 8 (8 * n))).map Hw.sad
    else none
  | .r512 =>
    if c.avx512f then
      if c.avx512bw then (emul_popcnt_u8 c .r512 (a.recast 8 (8 * n) : Vec 8 (8 * n))).map Hw.sad
      else emul_popcnt_u64 c .r512 a
    else none

/-- `i_popcnt` of one register. -/
def i_popcnt (c : Cfg) (r : Reg) (a : Vec w n) : Option (Vec w n) :=
  if h : w = 8 then h ▸ i_popcnt8 c r (h ▸ a)
  else if h : w = 16 then h ▸ i_popcnt16 c r (h ▸ a)
  else if h : w = 32 then h ▸ i_popcnt32 c r (h ▸ a)
  else if h : w = 64 then h ▸ i_popcnt64 c r (h ▸ a)
  else none

end Simdpp
