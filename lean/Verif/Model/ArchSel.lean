import Verif.Model.Cfg
import Verif.Model.Dispatch

/-!
# Compile-time instruction set selection
(`simdpp/detail/preprocess_single_arch.h`, `simdpp/setup_arch.h`, `this_compile_arch.h`)
-/

namespace Simdpp.ArchSel

/-- The instruction sets that can be requested (`SIMDPP_ARCH_X86_SSE2`, ...).
Models the macro names in /repo/simdpp/detail/preprocess_single_arch.h:272-351. -/
inductive Insn
  | sse2 | sse3 | ssse3 | sse41 | popcnt | avx | avx2 | fma3 | fma4 | xop
  | avx512f | avx512bw | avx512dq | avx512vl | neon | neonFltSp | altivec | vsx206 | vsx207 | msa
deriving DecidableEq, Repr

/-- A set of instruction sets: which `SIMDPP_ARCH_PP_USE_*` are defined. -/
abbrev Set := Insn → Bool

/-- The bit of an instruction set in the list mask.
Models `SIMDPP_INSN_MASK_*`, /repo/simdpp/detail/insn_id.h:37-57, and 59-79. -/
def insnMask : Insn → BitVec 32
  | .sse2 => 0x00000002 | .sse3 => 0x00000004 | .ssse3 => 0x00000008 | .sse41 => 0x00000010
  | .popcnt => 0x00000020 | .avx => 0x00000040 | .avx2 => 0x00000080 | .fma3 => 0x00000100
  | .fma4 => 0x00000200 | .xop => 0x00000400 | .avx512f => 0x00000800 | .avx512bw => 0x00001000
  | .avx512dq => 0x00002000 | .avx512vl => 0x00004000 | .neon => 0x00008000 | .neonFltSp => 0x00010000
  | .altivec => 0x00020000 | .vsx206 => 0x00040000 | .vsx207 => 0x00080000 | .msa => 0x00100000

/-- `SIMDPP_ARCH_PP_MASK`: the or of the masks of the first 14 list entries (the macro has 14
parameters and ignores the rest; missing ones are 0).
Models /repo/simdpp/detail/preprocess_single_arch.h:187-205. -/
def listMask (l : List Insn) : BitVec 32 := (l.take 14).foldl (fun m i => m ||| insnMask i) 0

/-- The instruction sets found in the mask.
Models /repo/simdpp/detail/preprocess_single_arch.h:207-266. -/
def ofList (l : List Insn) : Set := fun i => decide (listMask l &&& insnMask i = insnMask i)

/-- `#if USE_a / #ifndef USE_b / #define USE_b 1`. -/
def imp (a b : Insn) (u : Set) : Set := fun i => if i = b then u b || u a else u i

/-- The implied instruction sets, in the order of the code.
Models /repo/simdpp/detail/preprocess_single_arch.h:356-450. -/
def close (u : Set) : Set :=
  let u := imp .avx512vl .avx512f u
  let u := imp .avx512dq .avx512f u
  let u := imp .avx512bw .avx512f u
  let u := imp .avx512f .avx2 u
  let u := imp .avx2 .avx u
  let u := imp .avx .sse41 u
  let u := imp .fma3 .sse3 u
  let u := imp .fma4 .sse3 u
  let u := imp .xop .sse3 u
  let u := imp .sse41 .ssse3 u
  let u := imp .popcnt .ssse3 u
  let u := imp .ssse3 .sse3 u
  let u := imp .sse3 .sse2 u
  let u := imp .neonFltSp .neon u
  let u := imp .vsx207 .vsx206 u
  let u := imp .vsx206 .altivec u
  u

/-- `USE_NULL`. Models /repo/simdpp/detail/preprocess_single_arch.h:452-455. -/
def useNull (u : Set) : Bool := !(u .sse2 || u .neon || u .neonFltSp || u .altivec || u .msa)

/-- The result of including preprocess_single_arch.h with the given instruction sets requested;
`none`: `#error` (FMA3 with FMA4).
Models /repo/simdpp/detail/preprocess_single_arch.h:356-459. -/
def preprocess (requested : Set) : Option Set :=
  let u := close requested
  if u .fma3 && u .fma4 then none else some u

/-- The `SIMDPP_USE_*` macros of a build. Models /repo/simdpp/setup_arch.h:19-123, 333-345:
on 64-bit targets NEON implies NEON_FLT_SP. -/
def setup (u : Set) (bits64 : Bool) : Cfg where
  null := useNull u
  sse2 := u .sse2
  sse3 := u .sse3
  ssse3 := u .ssse3
  sse41 := u .sse41
  popcnt := u .popcnt
  avx := u .avx
  avx2 := u .avx2
  fma3 := u .fma3
  fma4 := u .fma4
  xop := u .xop
  avx512f := u .avx512f
  avx512bw := u .avx512bw
  avx512dq := u .avx512dq
  avx512vl := u .avx512vl
  neon := u .neon
  neonFltSp := if u .neon && bits64 then true else u .neonFltSp
  altivec := u .altivec
  vsx206 := u .vsx206
  vsx207 := u .vsx207
  msa := u .msa
  bits64 := bits64

/-- The parts of the namespace name: which instruction set ids are pasted after `arch`.
`none` stands for the id of NULL. Models /repo/simdpp/detail/preprocess_single_arch.h:465-527. -/
def nsIds (u : Set) : Option Insn → Bool
  | none => useNull u
  | some .sse2 => u .sse2 && !u .sse3
  | some .sse3 => u .sse3 && !u .ssse3 && !u .xop && !u .fma3 && !u .fma4
  | some .ssse3 => u .ssse3 && !u .sse41
  | some .sse41 => u .sse41 && !u .avx
  | some .popcnt => u .popcnt
  | some .avx => u .avx && !u .avx2
  | some .avx2 => u .avx2 && !u .avx512f
  | some .avx512f => u .avx512f && !u .avx512bw && !u .avx512dq && !u .avx512vl
  | some .avx512bw => u .avx512bw
  | some .avx512dq => u .avx512dq
  | some .avx512vl => u .avx512vl
  | some .fma3 => u .fma3
  | some .fma4 => u .fma4
  | some .xop => u .xop
  | some .neon => u .neon && !u .neonFltSp
  | some .neonFltSp => u .neonFltSp
  | some .altivec => u .altivec && !u .vsx206
  | some .vsx206 => u .vsx206 && !u .vsx207
  | some .vsx207 => u .vsx207
  | some .msa => u .msa

open Dispatch Dispatch.Arch

/-- `#if USE / res |= a`. -/
def orIfUse (b : Bool) (a : Arch) (res : Arch) : Arch := if b then res ||| a else res

/-- `this_compile_arch()`. Models /repo/simdpp/this_compile_arch.h:24-88. -/
def this_compile_arch (c : Cfg) : Arch :=
  let res : Arch := NONE_NULL
  let res := orIfUse c.sse2 X86_SSE2 res
  let res := orIfUse c.sse3 X86_SSE3 res
  let res := orIfUse c.ssse3 X86_SSSE3 res
  let res := orIfUse c.sse41 X86_SSE4_1 res
  let res := orIfUse c.popcnt X86_POPCNT_INSN res
  let res := orIfUse c.avx X86_AVX res
  let res := orIfUse c.avx2 X86_AVX2 res
  let res := orIfUse c.fma3 X86_FMA3 res
  let res := orIfUse c.fma4 X86_FMA4 res
  let res := orIfUse c.xop X86_XOP res
  let res := orIfUse c.avx512f X86_AVX512F res
  let res := orIfUse c.avx512bw X86_AVX512BW res
  let res := orIfUse c.avx512dq X86_AVX512DQ res
  let res := orIfUse c.avx512vl X86_AVX512VL res
  let res := orIfUse c.neon ARM_NEON res
  let res := orIfUse c.neonFltSp ARM_NEON_FLT_SP res
  let res := orIfUse c.altivec POWER_ALTIVEC res
  let res := orIfUse c.vsx206 POWER_VSX_206 res
  let res := orIfUse c.vsx207 POWER_VSX_207 res
  let res := orIfUse c.msa MIPS_MSA res
  res

/-- The same function in the dispatcher's translation unit, from the `SIMDPP_ARCH_PP_USE_*`
macros of the dispatched architecture, and `create_fn_version(fun_ptr)`.
Models /repo/simdpp/dispatch/preprocess_single_compile_arch.h:47-124. -/
def create_fn_version {F : Type} (u : Set) (f : F) : FnVersion F where
  needed_arch := this_compile_arch (setup u false)
  fun_ptr := some f

end Simdpp.ArchSel
