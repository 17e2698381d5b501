import Verif.Model.Bytes16
import Verif.Model.Compare
import Verif.Model.MakeConst

/-!
# Code selected by the compiler's version

`simdpp/detail/workarounds.h` and the conditionals on the compiler inside the instruction files. The other model files describe
the code with all workarounds off; here are the texts that replace it. Not here because the replacement is the same
instruction: `SIMDPP_WORKAROUND_AVX2_SHIFT_INTRINSICS` (`i_shift_l.h:120-127`, ..., inline assembly of `vpsllw`, ...), the pointer
casts under `__INTEL_COMPILER` (`store_masked.h:71-133`, `store_last.h:213-217`), the inline assembly of the NEON comparisons
(`cmp_lt.h:393-402`, ..., GCC 11 and later on 32-bit ARM), of `vmuluwm`, `vmulesw`, ... and the macro `vmul_f64`. Not here because it does
not compile: `SIMDPP_USE_AMD` on AVX builds (`store_first.h:254-256`, `store_last.h:272-274` name an undeclared variable in a function
that is not a template).
-/

namespace Simdpp

open Sh

variable {w n N M : Nat}

/-- `SIMDPP_WORKAROUND_XOP_COM` (clang 3.4 and 3.5): every comparison reads
`SIMDPP_USE_XOP && !SIMDPP_WORKAROUND_XOP_COM` where it would read `SIMDPP_USE_XOP`, so the integer comparisons are those of a build without
XOP. (The functions they call do not look at XOP.)
Models /repo/simdpp/detail/workarounds.h:14-16, /repo/simdpp/detail/insn/cmp_eq.h:195, /repo/simdpp/detail/insn/cmp_neq.h:34, 88,
139, 189, /repo/simdpp/detail/insn/cmp_lt.h:74, 160, 248, 291, 335, /repo/simdpp/detail/insn/cmp_gt.h:77, 163, 250, 296, 341,
/repo/simdpp/detail/insn/cmp_le.h:69, 142, 216, 253, 288, /repo/simdpp/detail/insn/cmp_ge.h:69, 142, 215, 251, 289. -/
def Cfg.xopComOff (c : Cfg) : Cfg := { c with xop := false }

/-- The SSSE3 branch of `i_shuffle_bytes16` for clang 3.6 and 3.7; the other branches are unchanged.
Models /repo/simdpp/detail/insn/shuffle_bytes16.h:28-95 with the condition of line 54 true. -/
def i_shuffle_bytes16_clang (c : Cfg) (r : Reg) (a b mask : Vec 8 n) : Option (Vec 8 n) :=
  if r = .r128 ∧ ¬ c.null ∧ ¬ c.xop ∧ ¬ c.avx ∧ c.ssse3 then do
    let select_a ← i_cmp_lt c true .r128 mask (Vec.splat 0x10)
    let ai := Hw.pshufb a mask
    let bi := Hw.pshufb b mask
    i_blend_vm c .int .r128 ai bi select_a
  else i_shuffle_bytes16 c r a b mask

/-- The arguments `v >> 32, v & 0xffffffff` of `_mm*_set_epi32`, `uint64_t v = e.val(i)`: the literal `0xffffffff` is an
`unsigned int`, the parameters are `int`. Models /repo/simdpp/detail/insn/make_const.h:446-448, 474-479. -/
def splitArgs (v : C.Val) : Option (List (BitVec 32)) := do
  let v := C.cast C.uint64 v
  some [C.toLane 32 (← C.shr v ⟨C.int32, 32⟩), C.toLane 32 (C.band v ⟨C.uint32, 0xffffffff⟩)]

/-- The 64-bit lanes of `i_make_const` for 32-bit MSVC; the other overloads are unchanged.
Models /repo/simdpp/detail/insn/make_const.h:441-482 with the conditions of lines 444 and 472 true. -/
def i_make_const64_msvc (c : Cfg) (r : Reg) [NeZero M] (e : Fin M → C.Val) (off : Nat) : Option (Vec 64 n) :=
  match r with
  | .r128 =>
    if c.sse2 then do
      let l := (← splitArgs (cval e (off + 1))) ++ (← splitArgs (cval e (off + 0)))
      some ((Hw.mm_set l : Vec 32 4).recast 64 n)
    else i_make_const_int c .r128 e off
  | .r256 =>
    if c.avx2 then do
      let l := (← splitArgs (cval e (off + 3))) ++ (← splitArgs (cval e (off + 2))) ++
        (← splitArgs (cval e (off + 1))) ++ (← splitArgs (cval e (off + 0)))
      some ((Hw.mm_set l : Vec 32 8).recast 64 n)
    else none
  | .r512 => i_make_const_int c .r512 e off

/-- Vectors of any number of 64-bit lanes. Models /repo/simdpp/detail/insn/make_const.h:497-523. -/
def make_const64_msvc (c : Cfg) (N : Nat) [NeZero M] (e : Fin M → C.Val) : Option (Vec 64 N) :=
  catM ((c.regK .int 64 N).lanes 64) fun i => i_make_const64_msvc c (c.regK .int 64 N) e (0 + (c.regK .int 64 N).lanes 64 * i)

/-- `make_uint` to 64-bit lanes for 32-bit MSVC. Models /repo/simdpp/core/make_uint.h. -/
def make_uint64_msvc (c : Cfg) (N : Nat) [NeZero M] (e : Fin M → BitVec 64) : Option (Vec 64 N) :=
  make_const64_msvc c N fun i => ⟨C.uint64, (e i).toNat⟩

/-- `make_int` to 64-bit lanes for 32-bit MSVC. Models /repo/simdpp/core/make_int.h. -/
def make_int64_msvc (c : Cfg) (N : Nat) [NeZero M] (e : Fin M → BitVec 64) : Option (Vec 64 N) :=
  make_const64_msvc c N fun i => ⟨C.int64, (e i).toInt⟩

/-- The 256-bit blend of `float64` lanes by a vector for compilers other than GCC, AVX without AVX2; the rest is unchanged.
Models /repo/simdpp/detail/insn/blend.h:573-583 with the condition of line 576 false. -/
def i_blend_clang (c : Cfg) (k : Kind) (r : Reg) (on off mask : Vec w n) : Option (Vec w n) :=
  if k = .flt ∧ r = .r256 ∧ w = 64 ∧ c.avx ∧ ¬ c.avx2 then some (Hw.blendv off on mask) else i_blend c k r on off mask

/-- `load_u` of vectors longer than one register for the Intel compiler, AVX (floating-point lanes) or AVX2 (integer lanes) but no wider
registers: each register is two 16-byte loads and `_mm256_insertf128_*` or `_mm256_inserti128_si256`.
Models /repo/simdpp/detail/insn/load_u.h:194-276. -/
def load_u_icc (c : Cfg) (k : Kind) (w N : Nat) (m : Mem) (p : Nat) : Option (Vec w N) :=
  if c.regK k w N = .r256 ∧ N ≠ Reg.r256.lanes w then
    catM (Reg.r256.lanes w) fun i => do
      let lo ← m.ldv w (128 / w) (p + i * 32)
      let hi ← m.ldv w (128 / w) (p + i * 32 + 16)
      some (fun j : Fin (Reg.r256.lanes w) => if j.val < 128 / w then lo.at_ j.val else hi.at_ (j.val - 128 / w))
  else load_u c k w N m p

end Simdpp
