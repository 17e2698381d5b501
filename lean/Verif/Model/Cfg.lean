import Verif.Model.Vec

/-!
# Build configurations
-/

namespace Simdpp

/-- The `SIMDPP_USE_*` macros of one build.
Models /repo/simdpp/setup_arch.h:19-123, 333-345. `bits64` is `SIMDPP_64_BITS`. -/
structure Cfg where
  null : Bool
  sse2 : Bool
  sse3 : Bool
  ssse3 : Bool
  sse41 : Bool
  popcnt : Bool
  avx : Bool
  avx2 : Bool
  fma3 : Bool
  fma4 : Bool
  xop : Bool
  avx512f : Bool
  avx512bw : Bool
  avx512dq : Bool
  avx512vl : Bool
  neon : Bool
  neonFltSp : Bool
  altivec : Bool
  vsx206 : Bool
  vsx207 : Bool
  msa : Bool
  bits64 : Bool
deriving DecidableEq, Repr

/-- Register widths the library has native vector types for. -/
inductive Reg | r128 | r256 | r512
deriving DecidableEq, Repr

/-- A configuration that `preprocess_single_arch.h` can produce: closed under
prerequisites, and NULL enabled exactly when no base instruction set is.
(Property C39 proves that the preprocessor establishes everything but `excl`,
which holds because a compiler accepts the headers of one processor family only.) -/
structure Cfg.Ok (c : Cfg) : Prop where
  sse3 : c.sse3 = true → c.sse2 = true
  ssse3 : c.ssse3 = true → c.sse3 = true
  sse41 : c.sse41 = true → c.ssse3 = true
  popcnt : c.popcnt = true → c.ssse3 = true
  avx : c.avx = true → c.sse41 = true
  avx2 : c.avx2 = true → c.avx = true
  fma3 : c.fma3 = true → c.sse3 = true
  fma4 : c.fma4 = true → c.sse3 = true
  xop : c.xop = true → c.sse3 = true
  avx512f : c.avx512f = true → c.avx2 = true
  avx512bw : c.avx512bw = true → c.avx512f = true
  avx512dq : c.avx512dq = true → c.avx512f = true
  avx512vl : c.avx512vl = true → c.avx512f = true
  neonFltSp : c.neonFltSp = true → c.neon = true
  vsx206 : c.vsx206 = true → c.altivec = true
  vsx207 : c.vsx207 = true → c.vsx206 = true
  null : c.null = !(c.sse2 || c.neon || c.altivec || c.msa)
  neon64 : c.neon = true → c.bits64 = true → c.neonFltSp = true
  /-- a compiler targets one processor family -/
  excl : (c.sse2 = true → c.neon = false ∧ c.altivec = false ∧ c.msa = false) ∧
    (c.neon = true → c.altivec = false ∧ c.msa = false) ∧ (c.altivec = true → c.msa = false)

/-- The integer vector overload for lane width `w` and register width `r` is
compiled (`#if SIMDPP_USE_AVX2`, `#if SIMDPP_USE_AVX512F/BW` around the
overloads, e.g. /repo/simdpp/detail/insn/i_add.h:41,49,117). -/
def Cfg.hasInt (c : Cfg) (w : Nat) : Reg → Bool
  | .r128 => true
  | .r256 => c.avx2
  | .r512 => if w ≤ 16 then c.avx512bw else c.avx512f

end Simdpp
