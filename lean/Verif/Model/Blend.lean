import Verif.Model.Mask

/-!
# blend, bit_select, test_bits_any
-/

namespace Simdpp

variable {w n : Nat}

namespace Hw

/-- `vbsl(mask, on, off)`, `vec_sel(off, on, mask)`, `bsel.v(mask, off, on)`, `_mm_cmov_si128(on, off, mask)`:
bitwise select. Arguments in the order `mask on off`. -/
def bsel (mask on off : Vec w n) : Vec w n := fun i => (on i &&& mask i) ||| (off i &&& ~~~ (mask i))

/-- `blendvX(off, on, mask)`: the top bit of each mask lane selects the whole lane. -/
def blendv (off on mask : Vec w n) : Vec w n := fun i => if (mask i).msb then on i else off i

end Hw

open C in
/-- `null::bit_select`: `(on1 & mask1) | (off1 & ~mask1)` in the unsigned element type.
Models /repo/simdpp/detail/null/shuffle.h:141-154. -/
def Null.bit_select (on off mask : Vec w n) : Vec w n :=
  fun i => toLane w (cast ⟨false, w⟩
    (bor (band (lane false (on i)) (lane false (mask i)))
         (band (lane false (off i)) (bnot (lane false (mask i))))))

/-- `null::blend_mask`: `mask.el(i) ? on.el(i) : off.el(i)`. Models
/repo/simdpp/detail/null/shuffle.h:156-204 (the length-1, -2 and -4 specialisations unroll the loop). -/
def Null.blend_mask {α : Type} (on off : Fin n → α) (mask : Fin n → Bool) : Fin n → α :=
  fun i => if mask i then on i else off i

/-- Three-operand version of `viaBytes2`: casts through `uint8<16>` (or `uint8<32>`). -/
def viaBytes3 (f : Vec 8 (w * n / 8) → Vec 8 (w * n / 8) → Vec 8 (w * n / 8) → Option (Vec 8 (w * n / 8)))
    (a b d : Vec w n) : Option (Vec w n) :=
  (f (a.recast 8 (w * n / 8)) (b.recast 8 (w * n / 8)) (d.recast 8 (w * n / 8))).map
    fun r => r.recast w n

/-- `bit_or(bit_and(on, mask), bit_andnot(off, mask))`. -/
def selAndOr (c : Cfg) (k : Kind) (r : Reg) (on off mask : Vec w n) : Option (Vec w n) := do
  i_bit_or c k r (← i_bit_and c k r on mask) (← i_bit_andnot c k r off mask)

/-- `i_blend(uint8<16>, uint8<16>, uint8<16>)`. Models /repo/simdpp/detail/insn/blend.h:30-55. -/
def i_blend8 (c : Cfg) (on off mask : Vec 8 n) : Option (Vec 8 n) :=
  if c.null then some (Null.bit_select on off mask)
  else if c.avx2 then some (Hw.blendv off on mask)
  else if c.xop then some (Hw.bsel mask on off)
  else if c.sse2 then selAndOr c .int .r128 on off mask
  else if c.neon then some (Hw.bsel mask on off)
  else if c.altivec then some (Hw.bsel mask on off)
  else if c.msa then some (Hw.bsel mask on off)
  else none

/-- `i_blend(V, V, V)`. Models /repo/simdpp/detail/insn/blend.h:30-70 (8-bit), 143-162 (16-bit),
235-255 (32-bit), 331-372 (float32), 448-472 (64-bit), 548-591 (float64; the GCC-without-AVX2 and
the other branch of 576-581 are both bitwise selects on lane masks: modelled is `blendv`). -/
def i_blend (c : Cfg) (k : Kind) (r : Reg) (on off mask : Vec w n) : Option (Vec w n) :=
  match k, r with
  | .int, .r128 =>
    if w = 64 ∧ (c.null ∨ (c.altivec ∧ ¬ c.vsx207)) then some (Null.bit_select on off mask)
    else viaBytes3 (i_blend8 c) on off mask
  | .int, .r256 =>
    if c.avx2 then viaBytes3 (fun x y m => some (Hw.blendv y x m)) on off mask else none
  | .int, .r512 => if c.hasInt w .r512 then some (Hw.ternlog 0xe4 on off mask) else none
  | .flt, .r128 =>
    if w = 32 then
      if c.null ∨ c.neonNoFltSp then some (Null.bit_select on off mask)
      else if c.avx then some (Hw.blendv off on mask)
      else if c.sse2 then selAndOr c .flt .r128 on off mask
      else if c.neon then some (Hw.bsel mask on off)
      else if c.altivec then some (Hw.bsel mask on off)
      else if c.msa then some (Hw.bsel mask on off)
      else none
    else
      if c.avx then some (Hw.blendv off on mask)
      else if c.sse2 then selAndOr c .flt .r128 on off mask
      else if c.neon64 then some (Hw.bsel mask on off)
      else if c.vsx206 then some (Hw.bsel mask on off)
      else if c.msa then some (Hw.bsel mask on off)
      else if c.null ∨ c.neon32 ∨ c.altivec then some (Null.bit_select on off mask)
      else none
  | .flt, .r256 =>
    if c.avx then
      if w = 64 ∧ ¬ c.avx2 then selAndOr c .flt .r256 on off mask
      else some (Hw.blendv off on mask)
    else none
  | .flt, .r512 => if c.avx512f then some (Hw.ternlog 0xe4 on off mask) else none

/-- Portable branch of the vector-and-mask forms: `NULL`, or `ALTIVEC && !VSX_207` (int64), or
`NEON32 || (ALTIVEC && !VSX_206)` (float64). /repo/simdpp/detail/insn/blend.h:480, 597. -/
def Cfg.vmNull (c : Cfg) (k : Kind) (w : Nat) : Bool :=
  match k with
  | .int => c.null || (decide (w = 64) && c.altivec && !c.vsx207)
  | .flt => if w = 32 then c.null else c.null || c.neon32 || (c.altivec && !c.vsx206)

/-- `i_blend(V, V, mask)`. Models /repo/simdpp/detail/insn/blend.h:75-104, 167-196, 260-290, 377-407,
477-507, 594-622. -/
def i_blend_vm (c : Cfg) (k : Kind) (r : Reg) (on off : Vec w n) (m : Mask w n) : Option (Vec w n) :=
  match r with
  | .r128 =>
    if c.vmNull k w then do some (Null.blend_mask on off (← m.asBits))
    else if c.avx512vl then do some (Hw.mask_blend (← m.asBits) off on)
    else i_blend c k .r128 on off m.unmask
  | .r256 =>
    if c.hasVec k w .r256 then
      if c.avx512vl then do some (Hw.mask_blend (← m.asBits) off on)
      else i_blend c k .r256 on off m.unmask
    else none
  | .r512 => if c.hasVec k w .r512 then do some (Hw.mask_blend (← m.asBits) off on) else none

/-- The mask-register combination `(on & mask) | (off & ~mask)`. -/
def kSel (on off mask : Fin n → Bool) : Fin n → Bool :=
  Hw.kor (Hw.kand on mask) (Hw.kand off (Hw.knot mask))

/-- `i_blend(mask, mask, mask)`. Models /repo/simdpp/detail/insn/blend.h:109-138, 201-230, 295-326,
412-443, 512-543, 625-662. -/
def i_blend_mm (c : Cfg) (k : Kind) (r : Reg) (on off m : Mask w n) : Option (Mask w n) :=
  match r with
  | .r128 =>
    if c.mmNull k w then do some (.bits (Null.blend_mask (← on.asBits) (← off.asBits) (← m.asBits)))
    else if c.avx512vl then do some (.bits (kSel (← on.asBits) (← off.asBits) (← m.asBits)))
    else (i_blend c k .r128 on.unmask off.unmask m.unmask).map (i_to_mask c k .r128)
  | .r256 =>
    if c.avx512vl then do some (.bits (kSel (← on.asBits) (← off.asBits) (← m.asBits)))
    else (i_blend c k .r256 on.unmask off.unmask m.unmask).map (i_to_mask c k .r256)
  | .r512 =>
    if k = .int ∧ w ≤ 16 then do some (.bits (kSel (← on.asBits) (← off.asBits) (← m.asBits)))
    else do some (.bits (Hw.kor (Hw.kand (← on.asBits) (← m.asBits)) (Hw.kandn (← m.asBits) (← off.asBits))))

/-! ## bit_select -/

/-- `i_bit_select(uint8<16>, …)`. Models /repo/simdpp/detail/insn/bit_select.h:30-50. -/
def i_bit_select8 (c : Cfg) (on off mask : Vec 8 n) : Option (Vec 8 n) :=
  if c.null then some (Null.bit_select on off mask)
  else if c.avx512vl then some (Hw.ternlog 0xe4 on off mask)
  else if c.xop then some (Hw.bsel mask on off)
  else if c.sse2 then selAndOr c .int .r128 on off mask
  else if c.neon then some (Hw.bsel mask on off)
  else if c.altivec then some (Hw.bsel mask on off)
  else if c.msa then some (Hw.bsel mask on off)
  else none

/-- `i_bit_select(V, V, V)`. Models /repo/simdpp/detail/insn/bit_select.h:30-71 (8-bit), 146-169 (16-bit),
240-266 (32-bit), 340-390 (float32), 466-498 (64-bit), 574-624 (float64). -/
def i_bit_select (c : Cfg) (k : Kind) (r : Reg) (on off mask : Vec w n) : Option (Vec w n) :=
  match k, r with
  | .int, .r128 =>
    if w = 64 ∧ (c.null ∨ (c.altivec ∧ ¬ c.vsx207)) then some (Null.bit_select on off mask)
    else if w = 64 ∧ c.avx512vl then some (Hw.ternlog 0xe4 on off mask)
    else viaBytes3 (i_bit_select8 c) on off mask
  | .int, .r256 =>
    if c.avx2 then
      if c.avx512vl then some (Hw.ternlog 0xe4 on off mask)
      else if w = 16 then viaBytes3 (selAndOr c .int .r256) on off mask
      else selAndOr c .int .r256 on off mask
    else none
  | .int, .r512 => if c.hasInt w .r512 then some (Hw.ternlog 0xe4 on off mask) else none
  | .flt, .r128 =>
    if w = 32 then
      if c.null ∨ c.neonNoFltSp then some (Null.bit_select on off mask)
      else if c.avx512vl then some (Hw.ternlog 0xe4 on off mask)
      else if c.sse2 then selAndOr c .flt .r128 on off mask
      else if c.neon then some (Hw.bsel mask on off)
      else if c.altivec then some (Hw.bsel mask on off)
      else if c.msa then some (Hw.bsel mask on off)
      else none
    else
      if c.avx512vl then some (Hw.ternlog 0xe4 on off mask)
      else if c.sse2 then selAndOr c .flt .r128 on off mask
      else if c.neon64 then some (Hw.bsel mask on off)
      else if c.vsx206 then some (Hw.bsel mask on off)
      else if c.msa then some (Hw.bsel mask on off)
      else if c.null ∨ c.neon32 ∨ c.altivec then some (Null.bit_select on off mask)
      else none
  | .flt, .r256 =>
    if c.avx then
      if c.avx512vl then some (Hw.ternlog 0xe4 on off mask) else selAndOr c .flt .r256 on off mask
    else none
  | .flt, .r512 => if c.avx512f then some (Hw.ternlog 0xe4 on off mask) else none

/-- `i_bit_select(V, V, mask)`. Models /repo/simdpp/detail/insn/bit_select.h:76-105, 174-201, 271-299,
395-425, 503-533, 629-657 (16-bit, 32-bit and float64 128-bit forms have no AVX512VL branch and go
through the vector form). -/
def i_bit_select_vm (c : Cfg) (k : Kind) (r : Reg) (on off : Vec w n) (m : Mask w n) :
    Option (Vec w n) :=
  match r with
  | .r128 =>
    if c.vmNull k w then do some (Null.blend_mask on off (← m.asBits))
    else if c.avx512vl ∧ ((k = .int ∧ (w = 8 ∨ w = 64)) ∨ (k = .flt ∧ w = 32)) then do
      some (Hw.mask_blend (← m.asBits) off on)
    else i_bit_select c k .r128 on off m.unmask
  | .r256 =>
    if c.hasVec k w .r256 then
      if c.avx512vl then do some (Hw.mask_blend (← m.asBits) off on)
      else i_bit_select c k .r256 on off m.unmask
    else none
  | .r512 => if c.hasVec k w .r512 then do some (Hw.mask_blend (← m.asBits) off on) else none

/-- `i_bit_select(mask, mask, mask)`. Models /repo/simdpp/detail/insn/bit_select.h:110-141, 206-235,
304-335, 430-461, 538-569, 662-693. (The float64 portable branch calls `null::bit_select` on 0/1
elements, which selects the same element.) -/
def i_bit_select_mm (c : Cfg) (k : Kind) (r : Reg) (on off m : Mask w n) : Option (Mask w n) :=
  match r with
  | .r128 =>
    if c.mmNull k w then do some (.bits (Null.blend_mask (← on.asBits) (← off.asBits) (← m.asBits)))
    else if c.avx512vl then do some (.bits (kSel (← on.asBits) (← off.asBits) (← m.asBits)))
    else (i_bit_select c k .r128 on.unmask off.unmask m.unmask).map (i_to_mask c k .r128)
  | .r256 =>
    if c.avx512vl then do some (.bits (kSel (← on.asBits) (← off.asBits) (← m.asBits)))
    else (i_bit_select c k .r256 on.unmask off.unmask m.unmask).map (i_to_mask c k .r256)
  | .r512 =>
    if k = .int ∧ w ≤ 16 then do some (.bits (kSel (← on.asBits) (← off.asBits) (← m.asBits)))
    else do some (.bits (Hw.kor (Hw.kand (← on.asBits) (← m.asBits)) (Hw.kandn (← m.asBits) (← off.asBits))))

/-! ## test_bits_any -/

namespace Hw
/-- `ptest`, `vptest`, `_mm256_testz_si256(a, a)` negated; `bnz.v`: some bit of the register is set. -/
def anyBit (a : Vec w n) : Bool := decide (∃ i, a i ≠ 0)
/-- `vec_any_gt(a, 0)` on unsigned lanes. -/
def anyGtZero (a : Vec w n) : Bool := decide (∃ i, 0 < (a i).toNat)
/-- `pmovmskb` after `pcmpeqd(a, 0)`: equals `0xffff` iff all lanes are zero. -/
def movemaskAllEq0 (a : Vec w n) : Bool := decide (∀ i, (if a i = 0 then BitVec.allOnes w else 0).msb = true)
/-- shift whole lanes towards lane 0 by `k`, zeros entering (NEON `vextq(a, 0, k)`). -/
def laneShr (k : Nat) (a : Vec w n) : Vec w n := fun i => a.at_ (i.val + k)
end Hw

/-- `i_test_bits_any(uint32<4>)` for the 128-bit register seen as `n` 32-bit lanes (`n = 4`).
Models /repo/simdpp/detail/insn/test_bits.h:28-55. -/
def i_test_bits_any32 (c : Cfg) (a : Vec 32 4) : Option Bool :=
  if c.null then some (Null.test_bits_any a)
  else if c.sse41 then some (Hw.anyBit a)
  else if c.sse2 then some (!Hw.movemaskAllEq0 a)
  else if c.neon ∧ c.bits64 then do
    let r : Vec 64 2 := a.recast 64 2
    let r ← i_bit_or c .int .r128 r (Hw.laneShr 1 r)
    some (decide (r.at_ 0 ≠ 0))
  else if c.neon then do
    let r ← i_bit_or c .int .r128 a (Hw.laneShr 2 a)
    let r ← i_bit_or c .int .r128 r (Hw.laneShr 1 r)
    some (decide (r.at_ 0 ≠ 0))
  else if c.altivec then some (Hw.anyGtZero a)
  else if c.msa then some (Hw.anyBit a)
  else none

/-- `i_test_bits_any` on a native vector. Models /repo/simdpp/detail/insn/test_bits.h:57-140. -/
def i_test_bits_any (c : Cfg) (k : Kind) (r : Reg) (a : Vec w n) : Option Bool :=
  match k, r with
  | .int, .r128 =>
    if w = 64 then
      if c.vsx207 then some (Hw.anyGtZero a)
      else if c.null ∨ c.altivec then some (Null.test_bits_any a)
      else i_test_bits_any32 c (a.recast 32 4)
    else if w = 32 then i_test_bits_any32 c (a.recast 32 4)
    else i_test_bits_any32 c (a.recast 32 4)
  | .flt, .r128 =>
    if w = 32 then
      if c.null ∨ c.neonNoFltSp then some (Null.test_bits_any a)
      else i_test_bits_any32 c (a.recast 32 4)
    else
      if c.null ∨ c.neon32 ∨ (c.altivec ∧ ¬ c.vsx206) then some (Null.test_bits_any a)
      else i_test_bits_any32 c (a.recast 32 4)
  | _, .r256 => if c.hasVec k w .r256 then some (Hw.anyBit a) else none
  | _, .r512 => if c.hasVec k w .r512 then some (Hw.anyBit a) else none

/-- Long vectors: OR all base vectors together, then test.
Models /repo/simdpp/detail/insn/test_bits.h:142-150. -/
def i_test_bits_any_long (c : Cfg) (k : Kind) (r : Reg) {K : Nat} (a : Fin (K + 1) → Vec w n) : Option Bool := do
  let v ← (List.finRange K).foldlM (fun v i => i_bit_or c k r v (a i.succ)) (a 0)
  i_test_bits_any c k r v

end Simdpp
