import Verif.Model.Shift
import Verif.Model.Mask
import Verif.Spec.Flt

/-!
# Comparisons (`simdpp/detail/insn/cmp_*.h`, `simdpp/core/cmp_*.h`)
-/

namespace Simdpp

variable {w n : Nat}

namespace Hw

/-- Lane predicates of the compare instructions. -/
def eqP (a b : Vec w n) : Fin n → Bool := fun i => decide (a i = b i)
def neP (a b : Vec w n) : Fin n → Bool := fun i => decide (a i ≠ b i)
def ltP (s : Bool) (a b : Vec w n) : Fin n → Bool :=
  fun i => if s then (a i).slt (b i) else (a i).ult (b i)
def leP (s : Bool) (a b : Vec w n) : Fin n → Bool :=
  fun i => if s then (a i).sle (b i) else (a i).ule (b i)
def gtP (s : Bool) (a b : Vec w n) : Fin n → Bool := ltP s b a
def geP (s : Bool) (a b : Vec w n) : Fin n → Bool := leP s b a
/-- `_MM_CMPINT_NLT` -/
def nltP (s : Bool) (a b : Vec w n) : Fin n → Bool := fun i => !ltP s a b i
/-- `_MM_CMPINT_NLE` -/
def nleP (s : Bool) (a b : Vec w n) : Fin n → Bool := fun i => !leP s a b i

/-- Register-producing compares (`pcmpeqX`, `pcmpgtX`, `vpcomX`, `vceq`, `vec_cmpgt`, `clt_s.X`, …):
all-ones where the predicate holds. -/
def sel (p : Fin n → Bool) : Vec w n := fun i => if p i then BitVec.allOnes w else 0

/-- NEON `vtrn` (both halves). -/
def trn1 (a b : Vec w n) : Vec w n := fun i => if i.val % 2 = 0 then a.at_ i.val else b.at_ (i.val - 1)
def trn2 (a b : Vec w n) : Vec w n := fun i => if i.val % 2 = 0 then a.at_ (i.val + 1) else b.at_ i.val

open Spec.Flt in
/-- IEEE compares: `_CMP_EQ_OQ`, `cmpeqps`, `vceqq_f32`, `fceq.w`, `vec_cmpeq`. -/
def feqP (a b : Vec w n) : Fin n → Bool := fun i => feq (a i) (b i)
/-- `_CMP_NEQ_UQ`, `cmpneqps`, `fcune.w` -/
def fneP (a b : Vec w n) : Fin n → Bool := fun i => Spec.Flt.fne (a i) (b i)
/-- `_CMP_LT_OQ`, `cmpltps`, `vcltq_f32`, `fclt.w`, `vec_cmplt` -/
def fltP (a b : Vec w n) : Fin n → Bool := fun i => Spec.Flt.flt (a i) (b i)
/-- `_CMP_LE_OQ` and siblings -/
def fleP (a b : Vec w n) : Fin n → Bool := fun i => Spec.Flt.fle (a i) (b i)
/-- `_CMP_GT_OQ` and siblings -/
def fgtP (a b : Vec w n) : Fin n → Bool := fun i => Spec.Flt.fgt (a i) (b i)
/-- `_CMP_GE_OQ` and siblings -/
def fgeP (a b : Vec w n) : Fin n → Bool := fun i => Spec.Flt.fge (a i) (b i)

end Hw

/-- Return a register as a mask object. The C++ conversion exists only if the mask class of this
build holds a register (else the program does not compile: `none`).
Models the native-type constructors, /repo/simdpp/types/int8x16.h:195-206. -/
def retV (c : Cfg) (k : Kind) (r : Reg) (v : Vec w n) : Option (Mask w n) :=
  if c.maskBits k w r then none else some (.vec v)

/-- Return an AVX-512 mask register, or the portable array of 0/1, as a mask object. -/
def retB (c : Cfg) (k : Kind) (r : Reg) (m : Fin n → Bool) : Option (Mask w n) :=
  if c.maskBits k w r then some (.bits m) else none

/-- Convert a mask to the register type. -/
def Mask.toVec (m : Mask w n) : Vec w n := m.unmask

/-- `bit_xor(a, 0x80…0)` on both operands. -/
def biased (c : Cfg) (r : Reg) (a b : Vec w n) : Option (Vec w n × Vec w n) := do
  let bias : Vec w n := Vec.splat (BitVec.ofNat w (2 ^ (w - 1)))
  some (← i_bit_xor c .int r a bias, ← i_bit_xor c .int r b bias)

/-- `i_cmp_eq` on 8-, 16- and 32-bit integers. Models /repo/simdpp/detail/insn/cmp_eq.h:31-47, 57-67,
77-81 (8-bit), 91-125 (16-bit), 130-146, 156-166, 176-181 (32-bit). -/
def i_cmp_eq_narrow (c : Cfg) (r : Reg) (a b : Vec w n) : Option (Mask w n) :=
  match r with
  | .r128 =>
    if c.null then retB c .int r (Null.cmp_eq false a b)
    else if c.avx512vl then retB c .int r (Hw.eqP a b)
    else if c.sse2 then retV c .int r (Hw.sel (Hw.eqP a b))
    else if c.neon then retV c .int r (Hw.sel (Hw.eqP a b))
    else if c.altivec then retV c .int r (Hw.sel (Hw.eqP a b))
    else if c.msa then retV c .int r (Hw.sel (Hw.eqP a b))
    else none
  | .r256 =>
    if c.avx2 then
      if c.avx512vl then retB c .int r (Hw.eqP a b) else retV c .int r (Hw.sel (Hw.eqP a b))
    else none
  | .r512 => if c.hasInt w .r512 then retB c .int r (Hw.eqP a b) else none

/-- `r32s = bit_or(shift_l<32>(r32), shift_r<32>(r32))` on 64-bit lanes: swap the halves.
Models /repo/simdpp/detail/insn/cmp_eq.h:205, cmp_neq.h:197. -/
def swapHalves (c : Cfg) (r32 : Vec 64 n) : Option (Vec 64 n) := do
  i_bit_or c .int .r128 (← shift_l_imm c .r128 32 r32) (← shift_r_imm c false .r128 32 r32)

/-- `i_cmp_eq(uint64, uint64)`. Models /repo/simdpp/detail/insn/cmp_eq.h:192-227, 237-247, 257-262. -/
def i_cmp_eq64 (c : Cfg) (r : Reg) (a b : Vec 64 n) : Option (Mask 64 n) :=
  match r with
  | .r128 =>
    if c.xop then retV c .int r (Hw.sel (Hw.eqP a b))
    else if c.avx512vl then retB c .int r (Hw.eqP a b)
    else if c.sse41 then retV c .int r (Hw.sel (Hw.eqP a b))
    else if c.sse2 then do
      let m ← i_cmp_eq_narrow c .r128 (a.recast 32 (2 * n)) (b.recast 32 (2 * n))
      let r32 := m.toVec.recast 64 n
      let r32s ← swapHalves c r32
      let r32 ← i_bit_and c .int .r128 r32 r32s
      retV c .int r r32
    else if c.neon64 then retV c .int r (Hw.sel (Hw.eqP a b))
    else if c.neon32 then do
      let m ← i_cmp_eq_narrow c .r128 (a.recast 32 (2 * n)) (b.recast 32 (2 * n))
      let r32 := m.toVec
      let t1 := Hw.trn1 r32 r32
      let t2 := Hw.trn2 r32 r32
      let r32 ← i_bit_and c .int .r128 t1 t2
      retV c .int r (r32.recast 64 n)
    else if c.vsx207 then retV c .int r (Hw.sel (Hw.eqP a b))
    else if c.msa then retV c .int r (Hw.sel (Hw.eqP a b))
    else if c.null ∨ c.altivec then retB c .int r (Null.cmp_eq false a b)
    else none
  | .r256 =>
    if c.avx2 then
      if c.avx512vl then retB c .int r (Hw.eqP a b) else retV c .int r (Hw.sel (Hw.eqP a b))
    else none
  | .r512 => if c.avx512f then retB c .int r (Hw.eqP a b) else none

/-- `cmp_eq` on integers; signed operands are converted to unsigned first
(`get_expr2_nosign`, /repo/simdpp/core/cmp_eq.h:36-46). -/
def i_cmp_eq (c : Cfg) (r : Reg) (a b : Vec w n) : Option (Mask w n) :=
  if h : w = 64 then h ▸ i_cmp_eq64 c r (h ▸ a) (h ▸ b) else i_cmp_eq_narrow c r a b

/-- `i_cmp_neq` on 8-bit integers. Models /repo/simdpp/detail/insn/cmp_neq.h:27-39, 49-59, 69-73. -/
def i_cmp_neq8 (c : Cfg) (r : Reg) (a b : Vec w n) : Option (Mask w n) :=
  match r with
  | .r128 =>
    if c.null then retB c .int r (Null.cmp_neq false a b)
    else if c.avx512vl then retB c .int r (Hw.neP a b)
    else if c.xop then retV c .int r (Hw.sel (Hw.neP a b))
    else do i_bit_not_m c .int r (← i_cmp_eq c r a b)
  | .r256 =>
    if c.avx2 then
      if c.avx512vl then retB c .int r (Hw.neP a b)
      else do i_bit_not_m c .int r (← i_cmp_eq c r a b)
    else none
  | .r512 => if c.hasInt w .r512 then retB c .int r (Hw.neP a b) else none

/-- `i_cmp_neq` on 16- and 32-bit integers. Models /repo/simdpp/detail/insn/cmp_neq.h:83-93, 103-109,
120-124, 134-144, 154-160, 170-175. -/
def i_cmp_neq_mid (c : Cfg) (r : Reg) (a b : Vec w n) : Option (Mask w n) :=
  match r with
  | .r128 =>
    if c.null then retB c .int r (Null.cmp_neq false a b)
    else if c.xop then retV c .int r (Hw.sel (Hw.neP a b))
    else do i_bit_not_m c .int r (← i_cmp_eq c r a b)
  | .r256 => if c.avx2 then do i_bit_not_m c .int r (← i_cmp_eq c r a b) else none
  | .r512 => if c.hasInt w .r512 then retB c .int r (Hw.neP a b) else none

/-- `i_cmp_neq(uint64, uint64)`. Models /repo/simdpp/detail/insn/cmp_neq.h:186-204, 214-220, 230-235. -/
def i_cmp_neq64 (c : Cfg) (r : Reg) (a b : Vec 64 n) : Option (Mask 64 n) :=
  match r with
  | .r128 =>
    if c.xop then retV c .int r (Hw.sel (Hw.neP a b))
    else if c.sse41 ∨ c.neon ∨ c.vsx207 ∨ c.msa then do i_bit_not_m c .int r (← i_cmp_eq c r a b)
    else if c.sse2 then do
      let m ← i_cmp_eq_narrow c .r128 (a.recast 32 (2 * n)) (b.recast 32 (2 * n))
      let r32 := m.toVec.recast 64 n
      let r32s ← swapHalves c r32
      let r32 ← i_bit_or c .int .r128 r32 r32s
      retV c .int r r32
    else if c.null ∨ c.altivec then retB c .int r (Null.cmp_neq false a b)
    else none
  | .r256 => if c.avx2 then do i_bit_not_m c .int r (← i_cmp_eq c r a b) else none
  | .r512 => if c.avx512f then retB c .int r (Hw.neP a b) else none

/-- `cmp_neq` on integers (/repo/simdpp/core/cmp_neq.h, `get_expr2_nosign`). -/
def i_cmp_neq (c : Cfg) (r : Reg) (a b : Vec w n) : Option (Mask w n) :=
  if h : w = 64 then h ▸ i_cmp_neq64 c r (h ▸ a) (h ▸ b)
  else if w = 8 then i_cmp_neq8 c r a b
  else i_cmp_neq_mid c r a b

/-- `i_cmp_gt` on integers. Models /repo/simdpp/detail/insn/cmp_gt.h:30-111 (8-bit), 116-199 (16-bit),
204-286 (32-bit), 291-380 (64-bit). -/
def i_cmp_gt (c : Cfg) (s : Bool) (r : Reg) (a b : Vec w n) : Option (Mask w n) :=
  match r with
  | .r128 =>
    if w = 64 then
      if c.avx512vl then retB c .int r (Hw.gtP s a b)
      else if c.xop then retV c .int r (Hw.sel (Hw.gtP s a b))
      else if c.avx2 then
        if s then retV c .int r (Hw.sel (Hw.gtP true a b))
        else do
          let (ca, cb) ← biased c r a b
          retV c .int r (Hw.sel (Hw.gtP true ca cb))
      else if c.neon64 then retV c .int r (Hw.sel (Hw.gtP s a b))
      else if c.vsx207 then retV c .int r (Hw.sel (Hw.gtP s a b))
      else if c.msa then retV c .int r (Hw.sel (Hw.ltP s b a))
      else if c.null ∨ c.altivec then retB c .int r (Null.cmp_gt s a b)
      else none
    else
      if c.null then retB c .int r (Null.cmp_gt s a b)
      else if c.avx512vl then retB c .int r (Hw.gtP s a b)
      else if c.xop ∧ s = false then retV c .int r (Hw.sel (Hw.gtP s a b))
      else if c.sse2 then
        if s then retV c .int r (Hw.sel (Hw.gtP true a b))
        else do
          let (ca, cb) ← biased c r a b
          retV c .int r (Hw.sel (Hw.gtP true ca cb))
      else if c.neon then retV c .int r (Hw.sel (Hw.gtP s a b))
      else if c.altivec then retV c .int r (Hw.sel (Hw.gtP s a b))
      else if c.msa then retV c .int r (Hw.sel (Hw.ltP s b a))
      else none
  | .r256 =>
    if c.avx2 then
      if c.avx512vl then retB c .int r (Hw.gtP s a b)
      else if s then retV c .int r (Hw.sel (Hw.gtP true a b))
      else do
        let (ca, cb) ← biased c r a b
        retV c .int r (Hw.sel (Hw.gtP true ca cb))
    else none
  | .r512 =>
    if c.hasInt w .r512 then
      if (w = 32 ∧ s = false) ∨ w = 64 then retB c .int r (Hw.nleP s a b)
      else retB c .int r (Hw.gtP s a b)
    else none

/-- `i_cmp_lt` on integers. Models /repo/simdpp/detail/insn/cmp_lt.h:27-109 (8-bit), 113-196 (16-bit),
200-284 (32-bit), 288-377 (64-bit). -/
def i_cmp_lt (c : Cfg) (s : Bool) (r : Reg) (a b : Vec w n) : Option (Mask w n) :=
  match r with
  | .r128 =>
    if w = 64 then
      if c.xop then retV c .int r (Hw.sel (Hw.ltP s a b))
      else if c.avx512vl then retB c .int r (Hw.ltP s a b)
      else if c.avx2 then
        if s then retV c .int r (Hw.sel (Hw.gtP true b a))
        else do
          let (ca, cb) ← biased c r a b
          retV c .int r (Hw.sel (Hw.gtP true cb ca))
      else if c.neon64 then retV c .int r (Hw.sel (Hw.ltP s a b))
      else if c.vsx207 then retV c .int r (Hw.sel (Hw.ltP s a b))
      else if c.msa then retV c .int r (Hw.sel (Hw.ltP s a b))
      else if c.null ∨ c.altivec then retB c .int r (Null.cmp_lt s a b)
      else none
    else
      if c.null then retB c .int r (Null.cmp_lt s a b)
      else if c.avx512vl then retB c .int r (Hw.ltP s a b)
      else if c.xop ∧ s = false then retV c .int r (Hw.sel (Hw.ltP s a b))
      else if c.sse2 then
        if s then retV c .int r (Hw.sel (Hw.ltP true a b))
        else do
          let (ca, cb) ← biased c r a b
          retV c .int r (Hw.sel (Hw.ltP true ca cb))
      else if c.neon then retV c .int r (Hw.sel (Hw.ltP s a b))
      else if c.altivec then retV c .int r (Hw.sel (Hw.ltP s a b))
      else if c.msa then retV c .int r (Hw.sel (Hw.ltP s a b))
      else none
  | .r256 =>
    if c.avx2 then
      if c.avx512vl then retB c .int r (Hw.ltP s a b)
      else if s then retV c .int r (Hw.sel (Hw.gtP true b a))
      else do
        let (ca, cb) ← biased c r a b
        retV c .int r (Hw.sel (Hw.gtP true cb ca))
    else none
  | .r512 =>
    if c.hasInt w .r512 then
      if w = 32 ∧ s = true then retB c .int r (Hw.gtP s b a)
      else retB c .int r (Hw.ltP s a b)
    else none

/-- `i_cmp_ge` on integers. Models /repo/simdpp/detail/insn/cmp_ge.h:27-317. -/
def i_cmp_ge (c : Cfg) (s : Bool) (r : Reg) (a b : Vec w n) : Option (Mask w n) :=
  match r with
  | .r128 =>
    if w = 64 then
      if c.avx512vl then retB c .int r (Hw.geP s a b)
      else if c.xop then retV c .int r (Hw.sel (Hw.geP s a b))
      else if c.neon64 then retV c .int r (Hw.sel (Hw.geP s a b))
      else if c.msa then retV c .int r (Hw.sel (Hw.leP s b a))
      else if c.null then retB c .int r (Null.cmp_ge s a b)
      else do i_bit_not_m c .int r (← i_cmp_lt c s r a b)
    else
      if c.null then retB c .int r (Null.cmp_ge s a b)
      else if c.avx512vl then retB c .int r (Hw.geP s a b)
      else if c.xop ∧ s = false then retV c .int r (Hw.sel (Hw.geP s a b))
      else if c.neon then retV c .int r (Hw.sel (Hw.geP s a b))
      else if c.msa then retV c .int r (Hw.sel (Hw.leP s b a))
      else do i_bit_not_m c .int r (← i_cmp_lt c s r a b)
  | .r256 =>
    if c.avx2 then
      if c.avx512vl then retB c .int r (Hw.geP s a b)
      else do i_bit_not_m c .int r (← i_cmp_lt c s r a b)
    else none
  | .r512 =>
    if c.hasInt w .r512 then
      if (w = 32 ∧ s = false) ∨ w = 64 then retB c .int r (Hw.nltP s a b)
      else retB c .int r (Hw.geP s a b)
    else none

/-- `i_cmp_le` on integers. Models /repo/simdpp/detail/insn/cmp_le.h:27-316. -/
def i_cmp_le (c : Cfg) (s : Bool) (r : Reg) (a b : Vec w n) : Option (Mask w n) :=
  match r with
  | .r128 =>
    if w = 64 then
      if c.avx512vl then retB c .int r (Hw.leP s a b)
      else if c.xop then retV c .int r (Hw.sel (Hw.leP s a b))
      else if c.neon64 then retV c .int r (Hw.sel (Hw.leP s a b))
      else if c.msa then retV c .int r (Hw.sel (Hw.leP s a b))
      else if c.null then retB c .int r (Null.cmp_le s a b)
      else do i_bit_not_m c .int r (← i_cmp_gt c s r a b)
    else
      if c.null then retB c .int r (Null.cmp_le s a b)
      else if c.avx512vl then retB c .int r (Hw.leP s a b)
      else if c.xop ∧ s = false then retV c .int r (Hw.sel (Hw.leP s a b))
      else if c.neon then retV c .int r (Hw.sel (Hw.leP s a b))
      else if c.msa then retV c .int r (Hw.sel (Hw.leP s a b))
      else do i_bit_not_m c .int r (← i_cmp_gt c s r a b)
  | .r256 =>
    if c.avx2 then
      if c.avx512vl then retB c .int r (Hw.leP s a b)
      else do i_bit_not_m c .int r (← i_cmp_gt c s r a b)
    else none
  | .r512 => if c.hasInt w .r512 then retB c .int r (Hw.leP s a b) else none

/-! ## Floating point

`P` is the instruction's predicate, `N` the portable C++ operator (both are the IEEE comparison).
NEON flush-to-zero of subnormals is not modelled. -/

/-- The common cascade of the float compares that have an instruction on every target.
Models /repo/simdpp/detail/insn/cmp_eq.h:273-399, cmp_lt.h:381-472, cmp_le.h:321-411,
cmp_gt.h:385-476, cmp_ge.h:322-412: `P` is the native compare, `M` the MSA form, `N` the portable
one. -/
def f_cmp (c : Cfg) (r : Reg) (P M N : Vec w n → Vec w n → Fin n → Bool) (a b : Vec w n) :
    Option (Mask w n) :=
  match r with
  | .r128 =>
    if w = 32 then
      if c.null ∨ c.neonNoFltSp then retB c .flt r (N a b)
      else if c.avx512vl then retB c .flt r (P a b)
      else if c.avx then retV c .flt r (Hw.sel (P a b))
      else if c.sse2 then retV c .flt r (Hw.sel (P a b))
      else if c.neon then retV c .flt r (Hw.sel (P a b))
      else if c.altivec then retV c .flt r (Hw.sel (P a b))
      else if c.msa then retV c .flt r (Hw.sel (M a b))
      else none
    else
      if c.avx512vl then retB c .flt r (P a b)
      else if c.avx then retV c .flt r (Hw.sel (P a b))
      else if c.sse2 then retV c .flt r (Hw.sel (P a b))
      else if c.neon64 then retV c .flt r (Hw.sel (P a b))
      else if c.vsx206 then retV c .flt r (Hw.sel (P a b))
      else if c.msa then retV c .flt r (Hw.sel (M a b))
      else if c.null ∨ c.neon32 ∨ c.altivec then retB c .flt r (N a b)
      else none
  | .r256 =>
    if c.avx then
      if c.avx512vl then retB c .flt r (P a b) else retV c .flt r (Hw.sel (P a b))
    else none
  | .r512 => if c.avx512f then retB c .flt r (P a b) else none

/-- `i_cmp_eq` on floats. Models /repo/simdpp/detail/insn/cmp_eq.h:273-399. -/
def f_cmp_eq (c : Cfg) (r : Reg) (a b : Vec w n) : Option (Mask w n) :=
  f_cmp c r Hw.feqP Hw.feqP (fun a b i => Spec.Flt.feq (a i) (b i)) a b
/-- `i_cmp_lt` on floats. Models /repo/simdpp/detail/insn/cmp_lt.h:381-472. -/
def f_cmp_lt (c : Cfg) (r : Reg) (a b : Vec w n) : Option (Mask w n) :=
  f_cmp c r Hw.fltP Hw.fltP (fun a b i => Spec.Flt.flt (a i) (b i)) a b
/-- `i_cmp_le` on floats. Models /repo/simdpp/detail/insn/cmp_le.h:321-411. -/
def f_cmp_le (c : Cfg) (r : Reg) (a b : Vec w n) : Option (Mask w n) :=
  f_cmp c r Hw.fleP Hw.fleP (fun a b i => Spec.Flt.fle (a i) (b i)) a b
/-- `i_cmp_gt` on floats: MSA uses `fclt(b, a)`. Models /repo/simdpp/detail/insn/cmp_gt.h:385-476. -/
def f_cmp_gt (c : Cfg) (r : Reg) (a b : Vec w n) : Option (Mask w n) :=
  f_cmp c r Hw.fgtP (fun a b => Hw.fltP b a) (fun a b i => Spec.Flt.fgt (a i) (b i)) a b
/-- `i_cmp_ge` on floats: MSA uses `fcle(b, a)`. Models /repo/simdpp/detail/insn/cmp_ge.h:322-412. -/
def f_cmp_ge (c : Cfg) (r : Reg) (a b : Vec w n) : Option (Mask w n) :=
  f_cmp c r Hw.fgeP (fun a b => Hw.fleP b a) (fun a b i => Spec.Flt.fge (a i) (b i)) a b

/-- `i_cmp_neq` on floats. Models /repo/simdpp/detail/insn/cmp_neq.h:246-262, 272-282, 292-297 (float32),
308-326, 336-346, 356-361 (float64). -/
def f_cmp_neq (c : Cfg) (r : Reg) (a b : Vec w n) : Option (Mask w n) :=
  match r with
  | .r128 =>
    if w = 32 then
      if c.null then retB c .flt r (fun i => Spec.Flt.fne (a i) (b i))
      else if c.avx512vl then retB c .flt r (Hw.fneP a b)
      else if c.avx then retV c .flt r (Hw.sel (Hw.fneP a b))
      else if c.sse2 then retV c .flt r (Hw.sel (Hw.fneP a b))
      else if c.neon ∨ c.altivec then do i_bit_not_m c .flt r (← f_cmp_eq c r a b)
      else if c.msa then retV c .flt r (Hw.sel (Hw.fneP a b))
      else none
    else
      if c.avx512vl then retB c .flt r (Hw.fneP a b)
      else if c.avx then retV c .flt r (Hw.sel (Hw.fneP a b))
      else if c.sse2 then retV c .flt r (Hw.sel (Hw.fneP a b))
      else if c.neon64 ∨ c.vsx206 then do i_bit_not_m c .flt r (← f_cmp_eq c r a b)
      else if c.msa then retV c .flt r (Hw.sel (Hw.fneP a b))
      else if c.null ∨ c.neon32 ∨ c.altivec then retB c .flt r (fun i => Spec.Flt.fne (a i) (b i))
      else none
  | .r256 =>
    if c.avx then
      if c.avx512vl then retB c .flt r (Hw.fneP a b) else retV c .flt r (Hw.sel (Hw.fneP a b))
    else none
  | .r512 => if c.avx512f then retB c .flt r (Hw.fneP a b) else none

/-! ## Mask operands (AVX-512) -/

/-- `_mm512_kxnor`: the intrinsic is declared on `__mmask16`, so operands and result are
truncated to 16 bits. -/
def Hw.kxnor16 (a b : Fin n → Bool) : Fin n → Bool := fun i => decide (i.val < 16) && (a i == b i)
/-- `_mm512_kxor`, declared on `__mmask16`. -/
def Hw.kxor16 (a b : Fin n → Bool) : Fin n → Bool := fun i => decide (i.val < 16) && (a i ^^ b i)

/-- `i_cmp_eq(mask, mask)` where the library has a dedicated overload (AVX-512VL, all widths and
register sizes except `mask_int32<4>`, `mask_int32<8>`, `mask_int16<32>`).
Models /repo/simdpp/detail/insn/cmp_eq.h:49-55, 69-75, 83-86, 148-154, 168-174, 184-187, 229-235,
249-255, 265-268, 293-299, 314-320, 330-333, 360-366, 381-387, 397-400. -/
def i_cmp_eq_mm (a b : Mask w n) : Option (Mask w n) := do
  some (.bits (Hw.kxnor16 (← a.asBits) (← b.asBits)))

/-- `i_cmp_neq(mask, mask)` (AVX-512VL). Models /repo/simdpp/detail/insn/cmp_neq.h:41-47, 61-67, 75-78,
95-101, 111-117, 126-129, 146-152, 162-168, 178-181, 206-212, 222-228, 238-241 and the float forms. -/
def i_cmp_neq_mm (a b : Mask w n) : Option (Mask w n) := do
  some (.bits (Hw.kxor16 (← a.asBits) (← b.asBits)))

end Simdpp
