import Verif.Model.Popcnt
import Verif.Model.Bytes16
import Verif.Model.Compare

/-!
# Shifts by a vector of counts

`simdpp/detail/insn/i_shift_l_v.h`, `i_shift_r_v.h` and the entry points `simdpp/core/i_shift_l.h:114-202`,
`simdpp/core/i_shift_r.h:149-261`, which are guarded by the `SIMDPP_HAS_*_SHIFT_*_BY_VECTOR` macros of
`simdpp/capabilities.h`. (There are no 64-bit versions.)
-/

namespace Simdpp
open Sh

variable {w v n : Nat}

namespace Hw

/-- `_mm*_sllv_epi{16,32}`: counts of `w` or more give zero. -/
def sllv (a k : Vec w n) : Vec w n := fun i => if (k i).toNat < w then a i <<< (k i).toNat else 0
/-- `_mm*_srlv_epi{16,32}` -/
def srlv (a k : Vec w n) : Vec w n := fun i => if (k i).toNat < w then a i >>> (k i).toNat else 0
/-- `_mm*_srav_epi{16,32}`: counts of `w` or more fill with the sign. -/
def srav (a k : Vec w n) : Vec w n := fun i => (a i).sshiftRight (if (k i).toNat < w then (k i).toNat else w - 1)
/-- The count operand of `_mm_sll_epi32`, `_mm_srl_epi32`, `_mm_sra_epi32`: the low 64 bits of the register. -/
def count64 (k : Vec w n) : Nat := ((k.recast 64 1 : Vec 64 1) 0).toNat

end Hw

/-- `make_uint(v0, v1, ...)`: the values repeated to fill the vector. -/
def cyc (l : List Nat) : Vec w n := fun i => BitVec.ofNat w (l.getD (i.val % l.length) 0)

/-- The 16-bit lanes under a vector of bytes, `U16 a16; a16 = a`. -/
def as16 (a : Vec 8 n) : Vec 16 (n / 2) := a.recast 16 (n / 2)

/-! ## left -/

/-- `v_emul_shift_l_v16_using_mul`. Models /repo/simdpp/detail/insn/i_shift_l_v.h:126-146. -/
def emul_shift_l_v16_using_mul (c : Cfg) (r : Reg) (a count : Vec 16 n) : Option (Vec 16 n) := do
  let mulshift_mask : Vec 8 (2 * n) := cyc [0x01, 0x02, 0x04, 0x08, 0x10, 0x20, 0x40, 0x80, 0, 0, 0, 0, 0, 0, 0, 0]
  let t ← shift_l_imm c r 8 count
  let qcount ← i_bit_or c .int r count t
  let qcount ← i_bit_xor c .int r qcount (Vec.splat 0x0800)
  let mulshift ← i_permute_bytes16 c r mulshift_mask (qcount.recast 8 (2 * n))
  i_mul_lo16 c r a (mulshift.recast 16 n)

/-- `i_shift_l_v(uint16<N>)`. Models /repo/simdpp/detail/insn/i_shift_l_v.h:148-185. -/
def i_shift_l_v16 (c : Cfg) (r : Reg) (a count : Vec 16 n) : Option (Vec 16 n) :=
  match r with
  | .r128 =>
    if c.null then Null.shift_l_v false a count
    else if c.avx512bw ∧ c.avx512vl then some (Hw.sllv a count)
    else if c.ssse3 then emul_shift_l_v16_using_mul c .r128 a count
    else if c.neon then some (Hw.vshl_u a count)
    else if c.altivec then some (Hw.sl_mod a count)
    else if c.msa then some (Hw.sl_mod a count)
    else none
  | .r256 =>
    if c.avx2 then
      if c.avx512bw ∧ c.avx512vl then some (Hw.sllv a count)
      else emul_shift_l_v16_using_mul c .r256 a count
    else none
  | .r512 => if c.avx512bw then some (Hw.sllv a count) else none

/-- `v_emul_shift_l_v8_using_v16`. Models /repo/simdpp/detail/insn/i_shift_l_v.h:29-48. -/
def emul_shift_l_v8_using_v16 (c : Cfg) (r : Reg) (a count : Vec 8 n) : Option (Vec 8 n) := do
  let a16 := as16 a
  let c16 := as16 count
  let a_hi ← i_bit_and c .int r a16 (Vec.splat 0xff00)
  let c_lo ← i_bit_andnot c .int r c16 (Vec.splat 0xff00)
  let c_hi ← shift_r_imm c false r 8 c16
  let a_lo ← i_shift_l_v16 c r a16 c_lo
  let a_hi ← i_shift_l_v16 c r a_hi c_hi
  let a_lo ← i_bit_andnot c .int r a_lo (Vec.splat 0xff00)
  let a16 ← i_bit_or c .int r a_lo a_hi
  some (a16.recast 8 n)

/-- `v_emul_shift_l_v8_using_mul`. Models /repo/simdpp/detail/insn/i_shift_l_v.h:51-81. -/
def emul_shift_l_v8_using_mul (c : Cfg) (r : Reg) (a count : Vec 8 n) : Option (Vec 8 n) := do
  let mulshift_mask : Vec 8 n := cyc [0x01, 0x02, 0x04, 0x08, 0x10, 0x20, 0x40, 0x80]
  let mulshift := as16 (← i_permute_bytes16 c r mulshift_mask count)
  let a16 := as16 a
  let a16_lo ← shift_l_imm c r 8 a16
  let mulshift_lo ← i_bit_and c .int r mulshift (Vec.splat 0x00ff)
  let a16_hi ← i_bit_andnot c .int r a16 (Vec.splat 0x00ff)
  let mulshift_hi ← shift_r_imm c false r 8 mulshift
  let a16_lo ← i_mul_lo16 c r a16_lo mulshift_lo
  let a16_hi ← i_mul_lo16 c r a16_hi mulshift_hi
  let a16_lo ← shift_r_imm c false r 8 a16_lo
  let a16 ← i_bit_or c .int r a16_lo a16_hi
  some (a16.recast 8 n)

/-- `i_shift_l_v(uint8<N>)`. Models /repo/simdpp/detail/insn/i_shift_l_v.h:83-121. -/
def i_shift_l_v8 (c : Cfg) (r : Reg) (a count : Vec 8 n) : Option (Vec 8 n) :=
  match r with
  | .r128 =>
    if c.null then Null.shift_l_v false a count
    else if c.avx512bw ∧ c.avx512vl then emul_shift_l_v8_using_v16 c .r128 a count
    else if c.ssse3 then emul_shift_l_v8_using_mul c .r128 a count
    else if c.neon then some (Hw.vshl_u a count)
    else if c.altivec then some (Hw.sl_mod a count)
    else if c.msa then some (Hw.sl_mod a count)
    else none
  | .r256 =>
    if c.avx2 then
      if c.avx512bw ∧ c.avx512vl then emul_shift_l_v8_using_v16 c .r256 a count
      else emul_shift_l_v8_using_mul c .r256 a count
    else none
  | .r512 => if c.avx512bw then emul_shift_l_v8_using_v16 c .r512 a count else none

/-- The even lanes of the counts (`count0`).
Models /repo/simdpp/detail/insn/i_shift_l_v.h:198-203 and /repo/simdpp/detail/insn/i_shift_r_v.h:373-378, 440-445. -/
def sseCount0 (c : Cfg) (count : Vec 32 4) : Option (Vec 32 4) :=
  if c.sse41 then some ((Hw.blend_epi16 (count.recast 16 8 : Vec 16 8) (Vec.splat 0) 0xcc).recast 32 4)
  else i_bit_and c .int .r128 count (cyc [0xffffffff, 0, 0xffffffff, 0])

/-- The SSE2..AVX code of `i_shift_*_v(*int32<4>)`: `op` is one of `_mm_sll_epi32`, `_mm_srl_epi32`, `_mm_sra_epi32`.
Models /repo/simdpp/detail/insn/i_shift_l_v.h:197-227 and /repo/simdpp/detail/insn/i_shift_r_v.h:372-402, 439-469. -/
def sseShiftV32 (c : Cfg) (op : Vec 32 4 → Nat → Vec 32 4) (a count : Vec 32 4) : Option (Vec 32 4) := do
  let count0 ← sseCount0 c count
  let count1 : Vec 32 4 := (Hw.srl (count.recast 64 2 : Vec 64 2) 32).recast 32 4
  let count2 : Vec 32 4 := (Hw.bsrli (count0.recast 8 16 : Vec 8 16) 8).recast 32 4
  let count3 : Vec 32 4 := (Hw.bsrli (count.recast 8 16 : Vec 8 16) 12).recast 32 4
  let a0 := op a (Hw.count64 count0)
  let a1 := op a (Hw.count64 count1)
  let a2 := op a (Hw.count64 count2)
  let a3 := op a (Hw.count64 count3)
  if c.sse41 then
    let a0 : Vec 16 8 := Hw.blend_epi16 (a0.recast 16 8) (a1.recast 16 8) 0x0c
    let a2 : Vec 16 8 := Hw.blend_epi16 (a2.recast 16 8) (a3.recast 16 8) 0xc0
    some ((Hw.blend_epi16 a0 a2 0xf0).recast 32 4)
  else
    let f0 := Hw.shuffle_ps a0 a1 (mask4x4 0 0 1 1)
    let f1 := Hw.shuffle_ps a2 a3 (mask4x4 2 2 3 3)
    some (Hw.shuffle_ps f0 f1 (mask4x4 0 2 0 2))

/-- `sseShiftV32` on the four lanes of a 128-bit register. -/
def sseShiftV (c : Cfg) (op : Vec 32 4 → Nat → Vec 32 4) (a count : Vec 32 n) : Option (Vec 32 n) :=
  (sseShiftV32 c op (Hw.part 4 0 a) (Hw.part 4 0 count)).map fun x => Hw.part n 0 x

/-- `i_shift_l_v(uint32<N>)`. Models /repo/simdpp/detail/insn/i_shift_l_v.h:189-250. -/
def i_shift_l_v32 (c : Cfg) (r : Reg) (a count : Vec 32 n) : Option (Vec 32 n) :=
  match r with
  | .r128 =>
    if c.null then Null.shift_l_v false a count
    else if c.avx2 then some (Hw.sllv a count)
    else if c.sse2 then sseShiftV c Hw.sll a count
    else if c.neon then some (Hw.vshl_u a count)
    else if c.altivec then some (Hw.sl_mod a count)
    else if c.msa then some (Hw.sl_mod a count)
    else none
  | .r256 => if c.avx2 then some (Hw.sllv a count) else none
  | .r512 => if c.avx512f then some (Hw.sllv a count) else none

/-- `SIMDPP_HAS_{INT,UINT}W_SHIFT_L_BY_VECTOR`. Models /repo/simdpp/capabilities.h:74-92. -/
def Cfg.hasShiftLV (c : Cfg) (w : Nat) : Prop :=
  if w = 32 then c.null ∨ c.sse2 ∨ c.neon ∨ c.altivec ∨ c.msa
  else c.null ∨ c.ssse3 ∨ c.neon ∨ c.altivec ∨ c.msa

instance (c : Cfg) (w : Nat) : Decidable (c.hasShiftLV w) := by unfold Cfg.hasShiftLV; infer_instance

/-- `shift_l(V, count)` of one register; signed vectors are reinterpreted as unsigned.
Models /repo/simdpp/core/i_shift_l.h:123-202. -/
def shift_l_v (c : Cfg) (r : Reg) (a count : Vec w n) : Option (Vec w n) :=
  if c.hasShiftLV w then
    if h : w = 8 then h ▸ i_shift_l_v8 c r (h ▸ a) (h ▸ count)
    else if h : w = 16 then h ▸ i_shift_l_v16 c r (h ▸ a) (h ▸ count)
    else if h : w = 32 then h ▸ i_shift_l_v32 c r (h ▸ a) (h ▸ count)
    else none
  else none

/-! ## right -/

/-- `vshlq_{u,s}W(a, neg(count))`. -/
def neonShrV (c : Cfg) (s : Bool) (a count : Vec w n) : Option (Vec w n) := do
  let qcount ← i_ineg c .r128 count
  some (if s then Hw.vshl_s a qcount else Hw.vshl_u a qcount)

/-- `v_emul_shift_r_u16_using_mul`. Models /repo/simdpp/detail/insn/i_shift_r_v.h:240-272. -/
def emul_shift_r_u16_using_mul (c : Cfg) (r : Reg) (a count : Vec 16 n) : Option (Vec 16 n) := do
  let is_same ← i_cmp_eq c r count (Vec.splat 0)
  let is_zero ← i_cmp_gt c false r count (Vec.splat 15)
  let mulshift_mask : Vec 8 (2 * n) := cyc [0x00, 0x80, 0x40, 0x20, 0x10, 0x08, 0x04, 0x02, 0x01, 0, 0, 0, 0, 0, 0, 0]
  let t ← shift_l_imm c r 8 count
  let qcount ← i_bit_or c .int r count t
  let qcount ← i_bit_xor c .int r qcount (Vec.splat 0x0008)
  let mulshift ← i_permute_bytes16 c r mulshift_mask (qcount.recast 8 (2 * n))
  let res ← i_mul_hi c false r a (mulshift.recast 16 n)
  let res ← i_blend_vm c .int r a res is_same
  i_bit_andnot_vm c .int r res is_zero

/-- `i_shift_r_v(uint16<N>)`. Models /repo/simdpp/detail/insn/i_shift_r_v.h:274-312. -/
def i_shift_r_v16u (c : Cfg) (r : Reg) (a count : Vec 16 n) : Option (Vec 16 n) :=
  match r with
  | .r128 =>
    if c.null then Null.shift_r_v false a count
    else if c.avx512bw ∧ c.avx512vl then some (Hw.srlv a count)
    else if c.ssse3 then emul_shift_r_u16_using_mul c .r128 a count
    else if c.neon then neonShrV c false a count
    else if c.altivec then some (Hw.sr_mod a count)
    else if c.msa then some (Hw.sr_mod a count)
    else none
  | .r256 =>
    if c.avx2 then
      if c.avx512bw ∧ c.avx512vl then some (Hw.srlv a count)
      else emul_shift_r_u16_using_mul c .r256 a count
    else none
  | .r512 => if c.avx512bw then some (Hw.srlv a count) else none

/-- `i_shift_r_v(int16<N>)`. Without AVX512VL the narrow registers are widened to 512 bits (undefined upper part, which is
dropped again), so the instruction acts on the lanes of the narrow register.
Models /repo/simdpp/detail/insn/i_shift_r_v.h:316-360. -/
def i_shift_r_v16s (c : Cfg) (r : Reg) (a count : Vec 16 n) : Option (Vec 16 n) :=
  match r with
  | .r128 =>
    if c.null then Null.shift_r_v true a count
    else if c.avx512bw ∧ c.avx512vl then some (Hw.srav a count)
    else if c.avx512bw then some (Hw.srav a count)
    else if c.neon then neonShrV c true a count
    else if c.altivec then some (Hw.sra_mod a count)
    else if c.msa then some (Hw.sra_mod a count)
    else none
  | .r256 => if c.avx2 then if c.avx512bw then some (Hw.srav a count) else none else none
  | .r512 => if c.avx512bw then some (Hw.srav a count) else none

/-- `v_emul_shift_r_u8_using_v16`. Models /repo/simdpp/detail/insn/i_shift_r_v.h:30-49. -/
def emul_shift_r_u8_using_v16 (c : Cfg) (r : Reg) (a count : Vec 8 n) : Option (Vec 8 n) := do
  let a16 := as16 a
  let c16 := as16 count
  let a_lo ← i_bit_and c .int r a16 (Vec.splat 0x00ff)
  let c_lo ← i_bit_and c .int r c16 (Vec.splat 0x00ff)
  let c_hi ← shift_r_imm c false r 8 c16
  let a_lo ← i_shift_r_v16u c r a_lo c_lo
  let a_hi ← i_shift_r_v16u c r a16 c_hi
  let a_hi ← i_bit_andnot c .int r a_hi (Vec.splat 0x00ff)
  let a16 ← i_bit_or c .int r a_lo a_hi
  some (a16.recast 8 n)

/-- The common part of `v_emul_shift_r_{u,i}8_using_mul` up to the multiplications: `(a16_lo, a16_hi)` after `mul_hi`.
Models /repo/simdpp/detail/insn/i_shift_r_v.h:55-82, 160-188. -/
def shr8Products (c : Cfg) (s : Bool) (r : Reg) (a count : Vec 8 n) : Option (Vec 16 (n / 2) × Vec 16 (n / 2)) := do
  let mulshift_mask : Vec 8 n := cyc [0x80, 0x40, 0x20, 0x10, 0x08, 0x04, 0x02, 0x01, 0, 0, 0, 0, 0, 0, 0, 0]
  let mulshift := as16 (← i_permute_bytes16 c r mulshift_mask count)
  let a16 := as16 a
  let a16_lo ← shift_l_imm c r 8 a16
  let mulshift_lo ← i_bit_and c .int r mulshift (Vec.splat 0x00ff)
  let mulshift_lo ← shift_l_imm c r 1 mulshift_lo
  let a16_hi ← i_bit_andnot c .int r a16 (Vec.splat 0x00ff)
  let t ← shift_r_imm c false r 8 mulshift
  let mulshift_hi ← shift_l_imm c r 1 t
  let a16_lo ← i_mul_hi c s r a16_lo mulshift_lo
  let a16_hi ← i_mul_hi c s r a16_hi mulshift_hi
  some (a16_lo, a16_hi)

/-- `v_emul_shift_r_u8_using_mul`. Models /repo/simdpp/detail/insn/i_shift_r_v.h:52-87. -/
def emul_shift_r_u8_using_mul (c : Cfg) (r : Reg) (a count : Vec 8 n) : Option (Vec 8 n) := do
  let p ← shr8Products c false r a count
  let a16_hi ← shift_l_imm c r 8 p.2
  let a16 ← i_bit_or c .int r p.1 a16_hi
  some (a16.recast 8 n)

/-- `v_emul_shift_r_i8_using_mul`. Models /repo/simdpp/detail/insn/i_shift_r_v.h:157-194. -/
def emul_shift_r_i8_using_mul (c : Cfg) (r : Reg) (a count : Vec 8 n) : Option (Vec 8 n) := do
  let p ← shr8Products c true r a count
  let a16_hi ← shift_l_imm c r 8 p.2
  let a16_lo ← i_bit_and c .int r p.1 (Vec.splat 0x00ff)
  let a16 ← i_bit_or c .int r a16_lo a16_hi
  some (a16.recast 8 n)

/-- `v_emul_shift_r_i8_using_v16`. Models /repo/simdpp/detail/insn/i_shift_r_v.h:133-155. -/
def emul_shift_r_i8_using_v16 (c : Cfg) (r : Reg) (a count : Vec 8 n) : Option (Vec 8 n) := do
  let a16 := as16 a
  let c16 := as16 count
  let a_lo ← shift_l_imm c r 8 a16
  let c_lo ← i_bit_and c .int r c16 (Vec.splat 0x00ff)
  let c_hi ← shift_r_imm c false r 8 c16
  let a_lo ← i_shift_r_v16s c r a_lo c_lo
  let a_hi ← i_shift_r_v16s c r a16 c_hi
  let a_lo ← shift_r_imm c false r 8 a_lo
  let a_hi ← i_bit_andnot c .int r a_hi (Vec.splat 0x00ff)
  let a16 ← i_bit_or c .int r a_lo a_hi
  some (a16.recast 8 n)

/-- `i_shift_r_v(uint8<N>)`, `i_shift_r_v(int8<N>)`.
Models /repo/simdpp/detail/insn/i_shift_r_v.h:89-128, 196-235. -/
def i_shift_r_v8 (c : Cfg) (s : Bool) (r : Reg) (a count : Vec 8 n) : Option (Vec 8 n) :=
  let v16 := fun r => if s then emul_shift_r_i8_using_v16 c r a count else emul_shift_r_u8_using_v16 c r a count
  let mul := fun r => if s then emul_shift_r_i8_using_mul c r a count else emul_shift_r_u8_using_mul c r a count
  match r with
  | .r128 =>
    if c.null then Null.shift_r_v s a count
    else if c.avx512bw ∧ c.avx512vl then v16 .r128
    else if c.ssse3 then mul .r128
    else if c.neon then neonShrV c s a count
    else if c.altivec then some (modShr s a count)
    else if c.msa then some (modShr s a count)
    else none
  | .r256 => if c.avx2 then if c.avx512bw ∧ c.avx512vl then v16 .r256 else mul .r256 else none
  | .r512 => if c.avx512bw then v16 .r512 else none

/-- `i_shift_r_v(uint32<N>)`, `i_shift_r_v(int32<N>)`.
Models /repo/simdpp/detail/insn/i_shift_r_v.h:364-427, 431-494. -/
def i_shift_r_v32 (c : Cfg) (s : Bool) (r : Reg) (a count : Vec 32 n) : Option (Vec 32 n) :=
  let x86 := if s then Hw.srav a count else Hw.srlv a count
  match r with
  | .r128 =>
    if c.null then Null.shift_r_v s a count
    else if c.avx2 then some x86
    else if c.sse2 then sseShiftV c (if s then Hw.sra else Hw.srl) a count
    else if c.neon then neonShrV c s a count
    else if c.altivec then some (modShr s a count)
    else if c.msa then some (modShr s a count)
    else none
  | .r256 => if c.avx2 then some x86 else none
  | .r512 => if c.avx512f then some x86 else none

/-- `SIMDPP_HAS_{INT,UINT}W_SHIFT_R_BY_VECTOR`. Models /repo/simdpp/capabilities.h:94-116. -/
def Cfg.hasShiftRV (c : Cfg) (s : Bool) (w : Nat) : Prop :=
  if w = 32 then c.null ∨ c.sse2 ∨ c.neon ∨ c.altivec ∨ c.msa
  else if w = 16 ∧ s then c.null ∨ c.avx512bw ∨ c.neon ∨ c.altivec ∨ c.msa
  else c.null ∨ c.ssse3 ∨ c.neon ∨ c.altivec ∨ c.msa

instance (c : Cfg) (s : Bool) (w : Nat) : Decidable (c.hasShiftRV s w) := by unfold Cfg.hasShiftRV; infer_instance

/-- `shift_r(V, count)` of one register, `s` the signedness of `V`.
Models /repo/simdpp/core/i_shift_r.h:158-261. -/
def shift_r_v (c : Cfg) (s : Bool) (r : Reg) (a count : Vec w n) : Option (Vec w n) :=
  if c.hasShiftRV s w then
    if h : w = 8 then h ▸ i_shift_r_v8 c s r (h ▸ a) (h ▸ count)
    else if h : w = 16 then
      h ▸ if s then i_shift_r_v16s c r (h ▸ a) (h ▸ count) else i_shift_r_v16u c r (h ▸ a) (h ▸ count)
    else if h : w = 32 then h ▸ i_shift_r_v32 c s r (h ▸ a) (h ▸ count)
    else none
  else none

end Simdpp
