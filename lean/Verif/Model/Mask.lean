import Verif.Model.Bitwise

/-!
# Mask types

`mask_int8<16>` etc. have a per-configuration representation: a register with
all-ones/all-zeros lanes, an AVX-512 mask register, or an array of 0/1 bytes.
-/

namespace Simdpp

variable {w n : Nat}

/-- A mask object: either one bit per lane (AVX-512 `__mmaskN`, or the portable
`vararray<uint8_t, N>` of 0/1), or a register.
Models /repo/simdpp/types/int8x16.h:174-244 and siblings. -/
inductive Mask (w n : Nat) where
  | bits (m : Fin n → Bool)
  | vec (v : Vec w n)

/-- Which representation the build uses: `true` = one bit per lane.
Models the `native_type` cascades /repo/simdpp/types/int8x16.h:181-193 (8-, 16-, 32-bit ints),
int64x2.h:181-193, float32x4.h:114-126, float64x2.h:112-124, the 256-bit classes
(`__mmaskN` iff AVX512VL) and the 512-bit classes (always `__mmaskN`). -/
def Cfg.maskBits (c : Cfg) (k : Kind) (w : Nat) : Reg → Bool
  | .r512 => true
  | .r256 => c.avx512vl
  | .r128 =>
    if c.avx512vl then true
    else match k with
      | .int =>
        if w = 64 then
          if c.sse2 then false else if c.neon then false else if c.vsx207 then false
          else if c.msa then false else true
        else
          if c.sse2 then false else if c.neon then false else if c.altivec then false
          else if c.msa then false else true
      | .flt =>
        if w = 64 then
          if c.sse2 then false else if c.neon64 then false else if c.vsx206 then false
          else if c.msa then false else true
        else
          if c.sse2 then false else if c.neonFltSp then false else if c.altivec then false
          else if c.msa then false else true

/-- Read the mask as a bit mask; a register mask has no such view. -/
def Mask.asBits : Mask w n → Option (Fin n → Bool)
  | .bits m => some m
  | .vec _ => none

/-- Read the mask as a register; a bit mask has no such view. -/
def Mask.asVec : Mask w n → Option (Vec w n)
  | .vec v => some v
  | .bits _ => none

/-- `unmask()` / conversion of a mask to a vector (`null::unmask_mask`,
`_mm_movm_*`, `_mm512_maskz_set1_epi32(m, ~0)`, or the register itself).
Models /repo/simdpp/types/int8x16.h:221-230, int64x2.h:217-226,
/repo/simdpp/detail/null/mask.h:24-38. -/
def Mask.unmask : Mask w n → Vec w n
  | .bits m => fun i => if m i then BitVec.allOnes w else 0
  | .vec v => v

open C in
/-- `cmp_neq(a, make_zero())` on the portable float types: a value differs from zero
unless all bits but the sign are clear. -/
def fneZero (x : BitVec w) : Bool := decide ((x &&& BitVec.ofNat w (2 ^ (w - 1) - 1)) ≠ 0)

/-- `to_mask(v)`. Models /repo/simdpp/detail/insn/conv_to_mask.inl:22-229. -/
def i_to_mask (c : Cfg) (k : Kind) (r : Reg) (a : Vec w n) : Mask w n :=
  match k, r with
  | .int, .r128 =>
    if w = 64 then
      if c.avx512vl then .bits (Hw.movepi_mask a)
      else if c.sse2 ∨ c.neon ∨ c.vsx207 ∨ c.msa then .vec a
      else .bits (Null.cmp_neq false a (fun _ => 0))
    else
      if c.null then .bits (Null.cmp_neq false a (fun _ => 0))
      else if c.avx512vl then .bits (Hw.movepi_mask a)
      else .vec a
  | .int, .r256 => if c.avx512vl then .bits (Hw.movepi_mask a) else .vec a
  | .int, .r512 => if w ≤ 16 then .bits (Hw.movepi_mask a) else .bits (Hw.test_mask a a)
  | .flt, .r128 =>
    if w = 32 then
      if c.avx512vl then .bits (Hw.test_mask a a)
      else if c.null ∨ (c.neon ∧ ¬ c.neonFltSp) then .bits (fun i => fneZero (a i))
      else .vec a
    else
      if c.avx512vl then .bits (Hw.test_mask a a)
      else if c.sse2 ∨ c.neon64 ∨ c.vsx206 ∨ c.msa then .vec a
      else .bits (fun i => fneZero (a i))
  | .flt, .r256 => if c.avx512vl then .bits (Hw.test_mask a a) else .vec a
  | .flt, .r512 => .bits (Hw.test_mask a a)

/-- `i_bit_and(V, mask)`. Models /repo/simdpp/detail/insn/bit_and.h:60-90, 149-179, 239-270,
335-366, 442-473, 549-580. -/
def i_bit_and_vm (c : Cfg) (k : Kind) (r : Reg) (a : Vec w n) (m : Mask w n) : Option (Vec w n) :=
  match r with
  | .r128 =>
    if c.null ∨ (k = .int ∧ w = 64 ∧ c.altivec ∧ ¬ c.vsx207) then m.asBits.map (Null.bit_and_vm a)
    else if c.avx512vl then m.asBits.map fun b => Hw.maskz_mov b a
    else i_bit_and c k .r128 a m.unmask
  | .r256 =>
    if c.hasVec k w .r256 then
      if c.avx512vl then m.asBits.map fun b => Hw.maskz_mov b a
      else i_bit_and c k .r256 a m.unmask
    else none
  | .r512 => if c.hasVec k w .r512 then m.asBits.map fun b => Hw.maskz_mov b a else none

/-- `i_bit_andnot(V, mask)`. Models /repo/simdpp/detail/insn/bit_andnot.h:60-90, 149-179,
239-270, 335-366, 442-473, 549-580. -/
def i_bit_andnot_vm (c : Cfg) (k : Kind) (r : Reg) (a : Vec w n) (m : Mask w n) :
    Option (Vec w n) :=
  match r with
  | .r128 =>
    if c.null ∨ (k = .int ∧ w = 64 ∧ c.altivec ∧ ¬ c.vsx207) then
      m.asBits.map (Null.bit_andnot_vm a)
    else if c.avx512vl then m.asBits.map fun b => Hw.maskz_mov (Hw.knot b) a
    else i_bit_andnot c k .r128 a m.unmask
  | .r256 =>
    if c.hasVec k w .r256 then
      if c.avx512vl then m.asBits.map fun b => Hw.maskz_mov (Hw.knot b) a
      else i_bit_andnot c k .r256 a m.unmask
    else none
  | .r512 => if c.hasVec k w .r512 then m.asBits.map fun b => Hw.maskz_mov (Hw.knot b) a else none

/-- The portable branch condition of the mask-mask operations: `NULL`; also
`ALTIVEC && !VSX_207` (int64), `NEON_NO_FLT_SP` (float32), `NEON32 || (ALTIVEC && !VSX_206)`
(float64). /repo/simdpp/detail/insn/bit_and.h:96, 372, 479, 586. -/
def Cfg.mmNull (c : Cfg) (k : Kind) (w : Nat) : Bool :=
  match k with
  | .int => c.null || (decide (w = 64) && c.altivec && !c.vsx207)
  | .flt => if w = 32 then c.null || c.neonNoFltSp
            else c.null || c.neon32 || (c.altivec && !c.vsx206)

/-- `i_bit_and(mask, mask)`. Models /repo/simdpp/detail/insn/bit_and.h:93-123, 182-212,
273-304, 369-400, 476-507, 583-614. -/
def i_bit_and_mm (c : Cfg) (k : Kind) (r : Reg) (a b : Mask w n) : Option (Mask w n) :=
  match r with
  | .r128 =>
    if c.mmNull k w then do some (.bits (Null.bit_and_mm (← a.asBits) (← b.asBits)))
    else if c.avx512vl then do some (.bits (Hw.kand (← a.asBits) (← b.asBits)))
    else (i_bit_and c k .r128 a.unmask b.unmask).map (i_to_mask c k .r128)
  | .r256 =>
    if c.avx512vl then do some (.bits (Hw.kand (← a.asBits) (← b.asBits)))
    else (i_bit_and c k .r256 a.unmask b.unmask).map (i_to_mask c k .r256)
  | .r512 => do some (.bits (Hw.kand (← a.asBits) (← b.asBits)))

/-- `i_bit_or(mask, mask)`. Models /repo/simdpp/detail/insn/bit_or.h:60-90, 116-146, 173-204,
235-266, 308-339, 381-412. -/
def i_bit_or_mm (c : Cfg) (k : Kind) (r : Reg) (a b : Mask w n) : Option (Mask w n) :=
  match r with
  | .r128 =>
    if c.mmNull k w then do some (.bits (Null.bit_or_mm (← a.asBits) (← b.asBits)))
    else if c.avx512vl then do some (.bits (Hw.kor (← a.asBits) (← b.asBits)))
    else (i_bit_or c k .r128 a.unmask b.unmask).map (i_to_mask c k .r128)
  | .r256 =>
    if c.avx512vl then do some (.bits (Hw.kor (← a.asBits) (← b.asBits)))
    else (i_bit_or c k .r256 a.unmask b.unmask).map (i_to_mask c k .r256)
  | .r512 => do some (.bits (Hw.kor (← a.asBits) (← b.asBits)))

/-- `i_bit_xor(mask, mask)`. Models /repo/simdpp/detail/insn/bit_xor.h:60-90, 116-146, 173-204,
235-266, 309-340, 384-415. -/
def i_bit_xor_mm (c : Cfg) (k : Kind) (r : Reg) (a b : Mask w n) : Option (Mask w n) :=
  match r with
  | .r128 =>
    if c.mmNull k w then do some (.bits (Null.bit_xor_mm (← a.asBits) (← b.asBits)))
    else if c.avx512vl then do some (.bits (Hw.kxor (← a.asBits) (← b.asBits)))
    else (i_bit_xor c k .r128 a.unmask b.unmask).map (i_to_mask c k .r128)
  | .r256 =>
    if c.avx512vl then do some (.bits (Hw.kxor (← a.asBits) (← b.asBits)))
    else (i_bit_xor c k .r256 a.unmask b.unmask).map (i_to_mask c k .r256)
  | .r512 => do some (.bits (Hw.kxor (← a.asBits) (← b.asBits)))

/-- `i_bit_andnot(mask, mask)`: `a & ~b`, resp. `kandn(b, a)`.
Models /repo/simdpp/detail/insn/bit_andnot.h:93-123, 182-212, 273-304, 369-400, 476-507, 583-614. -/
def i_bit_andnot_mm (c : Cfg) (k : Kind) (r : Reg) (a b : Mask w n) : Option (Mask w n) :=
  match r with
  | .r128 =>
    if c.mmNull k w then do some (.bits (Null.bit_andnot_mm (← a.asBits) (← b.asBits)))
    else if c.avx512vl then do some (.bits (Hw.kand (← a.asBits) (Hw.knot (← b.asBits))))
    else (i_bit_andnot c k .r128 a.unmask b.unmask).map (i_to_mask c k .r128)
  | .r256 =>
    if c.avx512vl then do some (.bits (Hw.kand (← a.asBits) (Hw.knot (← b.asBits))))
    else (i_bit_andnot c k .r256 a.unmask b.unmask).map (i_to_mask c k .r256)
  | .r512 =>
    if k = .int ∧ w ≤ 16 then do some (.bits (Hw.kand (← a.asBits) (Hw.knot (← b.asBits))))
    else do some (.bits (Hw.kandn (← b.asBits) (← a.asBits)))

/-- `i_bit_not(mask)`. Models /repo/simdpp/detail/insn/bit_not.h:145-224, 295-348. -/
def i_bit_not_m (c : Cfg) (k : Kind) (r : Reg) (a : Mask w n) : Option (Mask w n) :=
  match r with
  | .r128 =>
    if c.mmNull k w then do some (.bits (Null.bit_not_mm (← a.asBits)))
    else (i_bit_not c k .r128 a.unmask).map (i_to_mask c k .r128)
  | .r256 =>
    match k with
    | .int =>
      if c.avx2 ∧ ¬ c.avx512vl then (i_bit_not c .int .r256 a.unmask).map .vec
      else if c.avx512vl then do some (.bits (Hw.knot (← a.asBits)))
      else none
    | .flt =>
      if c.avx then (i_bit_not c .flt .r256 a.unmask).map (i_to_mask c .flt .r256) else none
  | .r512 => do some (.bits (Hw.knot (← a.asBits)))

end Simdpp
