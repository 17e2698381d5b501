import Verif.Model.NullLemmas
import Verif.Model.Intrin

/-!
# Bitwise operations and masks

`simdpp/detail/insn/bit_and.h`, `bit_andnot.h`, `bit_or.h`, `bit_xor.h`,
`bit_not.h`, `conv_to_mask.inl`, and the mask classes of `simdpp/types/*.h`.
-/

namespace Simdpp

/-- Integer or floating-point vector type. -/
inductive Kind | int | flt
deriving DecidableEq, Repr

/-- `SIMDPP_USE_NEON_NO_FLT_SP`. Models /repo/simdpp/setup_arch.h:360-363. -/
def Cfg.neonNoFltSp (c : Cfg) : Bool := c.neon && !c.neonFltSp
/-- `SIMDPP_USE_NEON32`. Models /repo/simdpp/setup_arch.h:360-363. -/
def Cfg.neon32 (c : Cfg) : Bool := c.neon && !c.bits64
/-- `SIMDPP_USE_NEON64`. Models /repo/simdpp/setup_arch.h:360-363. -/
def Cfg.neon64 (c : Cfg) : Bool := c.neon && c.bits64

/-- The vector type of this kind, lane width and register width exists in the
build: the `#if` around the overloads (float: /repo/simdpp/detail/insn/bit_and.h:420,428). -/
def Cfg.hasVec (c : Cfg) : Kind → Nat → Reg → Bool
  | .int, w, r => c.hasInt w r
  | .flt, _, .r128 => true
  | .flt, _, .r256 => c.avx
  | .flt, _, .r512 => c.avx512f

/-- Lane widths that exist for a kind (float16 does not exist). -/
def Kind.okW : Kind → Nat → Prop
  | .int, w => Spec.IsW w
  | .flt, w => w = 32 ∨ w = 64

theorem Kind.okW.isW {k : Kind} {w} (h : k.okW w) : Spec.IsW w := by
  cases k
  · exact h
  · rcases h with rfl | rfl
    · exact Or.inr (Or.inr (Or.inl rfl))
    · exact Or.inr (Or.inr (Or.inr rfl))

variable {w n : Nat}

/-- Apply a byte-vector operation to registers of another lane type through
`uint8<16>(x)` casts, e.g. /repo/simdpp/detail/insn/bit_and.h:127-130. -/
def viaBytes2 (f : Vec 8 (w * n / 8) → Vec 8 (w * n / 8) → Option (Vec 8 (w * n / 8)))
    (a b : Vec w n) : Option (Vec w n) :=
  (f (a.recast 8 (w * n / 8)) (b.recast 8 (w * n / 8))).map fun r => r.recast w n

/-- As `viaBytes2` for one operand. -/
def viaBytes1 (f : Vec 8 (w * n / 8) → Option (Vec 8 (w * n / 8))) (a : Vec w n) : Option (Vec w n) :=
  (f (a.recast 8 (w * n / 8))).map fun r => r.recast w n

/-! ## bit_and -/

/-- `i_bit_and(uint8<16>, uint8<16>)`. Models /repo/simdpp/detail/insn/bit_and.h:27-41. -/
def i_bit_and8 (c : Cfg) (a b : Vec 8 n) : Option (Vec 8 n) :=
  if c.null then some (Null.bit_and a b)
  else if c.sse2 then some (Hw.and a b)
  else if c.neon then some (Hw.and a b)
  else if c.altivec then some (Hw.and a b)
  else if c.msa then some (Hw.and a b)
  else none

/-- `i_bit_and` on vectors. Models /repo/simdpp/detail/insn/bit_and.h:27-57,
126-146 (16-bit via bytes), 215-236 (32-bit), 307-332 (64-bit), 403-439 (float32),
510-546 (float64). -/
def i_bit_and (c : Cfg) (k : Kind) (r : Reg) (a b : Vec w n) : Option (Vec w n) :=
  match k, r with
  | .int, .r128 =>
    if w = 64 ∧ (c.null ∨ (c.altivec ∧ ¬ c.vsx207)) then some (Null.bit_and a b)
    else viaBytes2 (i_bit_and8 c) a b
  | .int, .r256 => if c.avx2 then some (Hw.and a b) else none
  | .int, .r512 => if c.hasInt w .r512 then some (Hw.and a b) else none
  | .flt, .r128 =>
    if w = 32 then
      if c.null ∨ c.neonNoFltSp then some (Null.bit_and a b)
      else if c.sse2 then some (Hw.and a b)
      else if c.neon then some (Hw.and a b)
      else if c.altivec then some (Hw.and a b)
      else if c.msa then some (Hw.and a b)
      else none
    else
      if c.sse2 then some (Hw.and a b)
      else if c.neon64 then some (Hw.and a b)
      else if c.vsx206 then some (Hw.and a b)
      else if c.msa then some (Hw.and a b)
      else if c.null ∨ c.neon32 ∨ c.altivec then some (Null.bit_and a b)
      else none
  | .flt, .r256 => if c.avx then some (Hw.and a b) else none
  | .flt, .r512 =>
    if c.avx512f then
      if c.avx512dq then some (Hw.and a b)
      else if c.hasInt w .r512 then some (Hw.and a b) else none
    else none

/-! ## bit_or -/

/-- `i_bit_or(uint8<16>, uint8<16>)`. Models /repo/simdpp/detail/insn/bit_or.h:27-41. -/
def i_bit_or8 (c : Cfg) (a b : Vec 8 n) : Option (Vec 8 n) :=
  if c.null then some (Null.bit_or a b)
  else if c.sse2 then some (Hw.or a b)
  else if c.neon then some (Hw.or a b)
  else if c.altivec then some (Hw.or a b)
  else if c.msa then some (Hw.or a b)
  else none

/-- `i_bit_or` on vectors. Models /repo/simdpp/detail/insn/bit_or.h:27-57, 93-113,
149-170, 207-232, 269-305, 342-378. -/
def i_bit_or (c : Cfg) (k : Kind) (r : Reg) (a b : Vec w n) : Option (Vec w n) :=
  match k, r with
  | .int, .r128 =>
    if w = 64 ∧ (c.null ∨ (c.altivec ∧ ¬ c.vsx207)) then some (Null.bit_or a b)
    else viaBytes2 (i_bit_or8 c) a b
  | .int, .r256 => if c.avx2 then some (Hw.or a b) else none
  | .int, .r512 => if c.hasInt w .r512 then some (Hw.or a b) else none
  | .flt, .r128 =>
    if w = 32 then
      if c.null ∨ c.neonNoFltSp then some (Null.bit_or a b)
      else if c.sse2 then some (Hw.or a b)
      else if c.neon then some (Hw.or a b)
      else if c.altivec then some (Hw.or a b)
      else if c.msa then viaBytes2 (i_bit_or8 c) a b
      else none
    else
      if c.sse2 then some (Hw.or a b)
      else if c.neon64 then some (Hw.or a b)
      else if c.vsx206 then some (Hw.or a b)
      else if c.msa then viaBytes2 (i_bit_or8 c) a b
      else if c.null ∨ c.neon ∨ c.altivec then some (Null.bit_or a b)
      else none
  | .flt, .r256 => if c.avx then some (Hw.or a b) else none
  | .flt, .r512 =>
    if c.avx512f then
      if c.avx512dq then some (Hw.or a b)
      else if c.hasInt w .r512 then some (Hw.or a b) else none
    else none

/-! ## bit_xor -/

/-- `i_bit_xor(uint8x16, uint8x16)`. Models /repo/simdpp/detail/insn/bit_xor.h:27-41. -/
def i_bit_xor8 (c : Cfg) (a b : Vec 8 n) : Option (Vec 8 n) :=
  if c.null then some (Null.bit_xor a b)
  else if c.sse2 then some (Hw.xor a b)
  else if c.neon then some (Hw.xor a b)
  else if c.altivec then some (Hw.xor a b)
  else if c.msa then some (Hw.xor a b)
  else none

/-- `i_bit_xor` on vectors. Models /repo/simdpp/detail/insn/bit_xor.h:27-57, 93-113,
149-170, 207-232, 269-306, 344-381. -/
def i_bit_xor (c : Cfg) (k : Kind) (r : Reg) (a b : Vec w n) : Option (Vec w n) :=
  match k, r with
  | .int, .r128 =>
    if w = 64 ∧ (c.null ∨ (c.altivec ∧ ¬ c.vsx207)) then some (Null.bit_xor a b)
    else viaBytes2 (i_bit_xor8 c) a b
  | .int, .r256 => if c.avx2 then some (Hw.xor a b) else none
  | .int, .r512 => if c.hasInt w .r512 then some (Hw.xor a b) else none
  | .flt, .r128 =>
    if w = 32 then
      if c.null ∨ c.neonNoFltSp then some (Null.bit_xor a b)
      else if c.sse2 then some (Hw.xor a b)
      else if c.neon then some (Hw.xor a b)
      else if c.altivec then some (Hw.xor a b)
      else if c.msa then viaBytes2 (i_bit_xor8 c) a b
      else none
    else
      if c.sse2 then some (Hw.xor a b)
      else if c.neon64 then some (Hw.xor a b)
      else if c.vsx206 then some (Hw.xor a b)
      else if c.msa then viaBytes2 (i_bit_xor8 c) a b
      else if c.null ∨ c.neon32 ∨ c.altivec then some (Null.bit_xor a b)
      else none
  | .flt, .r256 => if c.avx then some (Hw.xor a b) else none
  | .flt, .r512 =>
    if c.avx512f then
      if c.avx512dq then some (Hw.xor a b)
      else if c.hasInt w .r512 then some (Hw.xor a b) else none
    else none

/-! ## bit_andnot -/

/-- `i_bit_andnot(uint8<16>, uint8<16>)`. Models /repo/simdpp/detail/insn/bit_andnot.h:27-41
(note the swapped operands of `pandn`). -/
def i_bit_andnot8 (c : Cfg) (a b : Vec 8 n) : Option (Vec 8 n) :=
  if c.null then some (Null.bit_andnot a b)
  else if c.sse2 then some (Hw.pandn b a)
  else if c.neon then some (Hw.bic a b)
  else if c.altivec then some (Hw.bic a b)
  else if c.msa then some (Hw.and a (Hw.nor b b))
  else none

/-- `i_bit_andnot` on vectors. Models /repo/simdpp/detail/insn/bit_andnot.h:27-57,
126-146, 215-236, 307-332, 403-439, 510-546. -/
def i_bit_andnot (c : Cfg) (k : Kind) (r : Reg) (a b : Vec w n) : Option (Vec w n) :=
  match k, r with
  | .int, .r128 =>
    if w = 64 ∧ (c.null ∨ (c.altivec ∧ ¬ c.vsx207)) then some (Null.bit_andnot a b)
    else viaBytes2 (i_bit_andnot8 c) a b
  | .int, .r256 => if c.avx2 then some (Hw.pandn b a) else none
  | .int, .r512 => if c.hasInt w .r512 then some (Hw.pandn b a) else none
  | .flt, .r128 =>
    if w = 32 then
      if c.null ∨ c.neonNoFltSp then some (Null.bit_andnot a b)
      else if c.sse2 then some (Hw.pandn b a)
      else if c.neon then some (Hw.bic a b)
      else if c.altivec then some (Hw.bic a b)
      else if c.msa then viaBytes2 (i_bit_andnot8 c) a b
      else none
    else
      if c.sse2 then some (Hw.pandn b a)
      else if c.neon64 then some (Hw.bic a b)
      else if c.vsx206 then some (Hw.bic a b)
      else if c.msa then viaBytes2 (i_bit_andnot8 c) a b
      else if c.null ∨ c.neon32 ∨ c.altivec then some (Null.bit_andnot a b)
      else none
  | .flt, .r256 => if c.avx then some (Hw.pandn b a) else none
  | .flt, .r512 =>
    if c.avx512f then
      if c.avx512dq then some (Hw.pandn b a)
      else if c.hasInt w .r512 then some (Hw.pandn b a) else none
    else none

/-! ## bit_not -/

open C in
/-- The loop `r.el(i) = ~a.el(i)`. Models /repo/simdpp/detail/insn/bit_not.h:31-35, 116-120. -/
def null_bit_not (a : Vec w n) : Vec w n := fun i => toLane w (bnot (lane false (a i)))

/-- `i_bit_not(uint8x16)`; `bit_xor(a, 0xff)` is xor with a vector of 0xff bytes.
Models /repo/simdpp/detail/insn/bit_not.h:27-45. -/
def i_bit_not8 (c : Cfg) (a : Vec 8 n) : Option (Vec 8 n) :=
  if c.null then some (null_bit_not a)
  else if c.sse2 then i_bit_xor c .int .r128 a (Vec.splat 0xff#8)
  else if c.neon then some (Hw.mvn a)
  else if c.altivec then some (Hw.nor a a)
  else if c.msa then some (Hw.nor a a)
  else none

/-- `i_bit_not` on vectors. Models /repo/simdpp/detail/insn/bit_not.h:27-62 (8-bit),
64-84, 87-109, 112-142, 227-258 (float32), 261-292 (float64). -/
def i_bit_not (c : Cfg) (k : Kind) (r : Reg) (a : Vec w n) : Option (Vec w n) :=
  match k, r with
  | .int, .r128 =>
    if w = 64 ∧ (c.null ∨ (c.altivec ∧ ¬ c.vsx207)) then some (null_bit_not a)
    else viaBytes1 (i_bit_not8 c) a
  | .int, .r256 =>
    if c.avx2 then viaBytes1 (fun x => i_bit_xor c .int .r256 x (Vec.splat 0xff#8)) a else none
  | .int, .r512 => if c.hasInt w .r512 then some (Hw.ternlog 0x1 a a a) else none
  | .flt, .r128 =>
    if w = 32 then
      if c.sse2 then i_bit_xor c .flt .r128 a (Vec.splat (BitVec.ofNat w 0xffffffff))
      else if c.neonFltSp then some (Hw.mvn a)
      else if c.altivec then some (Hw.nor a a)
      else if c.null ∨ c.msa ∨ c.neonNoFltSp then viaBytes1 (i_bit_not8 c) a
      else none
    else
      if c.sse2 then i_bit_xor c .flt .r128 a (Vec.splat (BitVec.ofNat w 0xffffffffffffffff))
      else if c.neon64 then some (Hw.mvn a)
      else if c.vsx206 then some (Hw.nor a a)
      else if c.null ∨ c.neon32 ∨ c.altivec ∨ c.msa then
        (if w = 64 ∧ (c.null ∨ (c.altivec ∧ ¬ c.vsx207)) then some (null_bit_not a)
         else viaBytes1 (i_bit_not8 c) a)
      else none
  | .flt, .r256 =>
    if c.avx then
      i_bit_xor c .flt .r256 a
        (Vec.splat (if w = 32 then BitVec.ofNat w 0xffffffff else BitVec.ofNat w 0xffffffffffffffff))
    else none
  | .flt, .r512 => if c.avx512f then some (Hw.ternlog 0x1 a a a) else none

end Simdpp
