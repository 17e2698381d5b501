import Verif.Model.Cfg

/-!
# Concrete configurations used by the non-vacuity examples
-/

namespace Simdpp

/-- The portable configuration. -/
def Cfg.portable : Cfg where
  null := true
  sse2 := false
  sse3 := false
  ssse3 := false
  sse41 := false
  popcnt := false
  avx := false
  avx2 := false
  fma3 := false
  fma4 := false
  xop := false
  avx512f := false
  avx512bw := false
  avx512dq := false
  avx512vl := false
  neon := false
  neonFltSp := false
  altivec := false
  vsx206 := false
  vsx207 := false
  msa := false
  bits64 := true

/-- SSE2 only. -/
def Cfg.sse2Only : Cfg := { Cfg.portable with null := false, sse2 := true }
/-- 64-bit NEON. -/
def Cfg.neonA64 : Cfg := { Cfg.portable with null := false, neon := true, neonFltSp := true }
/-- AVX2. -/
def Cfg.avx2Only : Cfg :=
  { Cfg.sse2Only with sse3 := true, ssse3 := true, sse41 := true, avx := true, avx2 := true }
/-- AVX. -/
def Cfg.avxOnly : Cfg := { Cfg.sse2Only with sse3 := true, ssse3 := true, sse41 := true, avx := true }
/-- AVX-512 with all extensions. -/
def Cfg.avx512All : Cfg :=
  { Cfg.avx2Only with popcnt := true, fma3 := true, avx512f := true, avx512bw := true,
                      avx512dq := true, avx512vl := true }
/-- AltiVec without VSX. -/
def Cfg.altivecOnly : Cfg := { Cfg.portable with null := false, altivec := true }
/-- MSA. -/
def Cfg.msaOnly : Cfg := { Cfg.portable with null := false, msa := true }

theorem Cfg.portable_ok : Cfg.portable.Ok := by constructor <;> decide
theorem Cfg.sse2Only_ok : Cfg.sse2Only.Ok := by constructor <;> decide
theorem Cfg.neonA64_ok : Cfg.neonA64.Ok := by constructor <;> decide
theorem Cfg.avx2Only_ok : Cfg.avx2Only.Ok := by constructor <;> decide
theorem Cfg.avxOnly_ok : Cfg.avxOnly.Ok := by constructor <;> decide
theorem Cfg.avx512All_ok : Cfg.avx512All.Ok := by constructor <;> decide
theorem Cfg.altivecOnly_ok : Cfg.altivecOnly.Ok := by constructor <;> decide
theorem Cfg.msaOnly_ok : Cfg.msaOnly.Ok := by constructor <;> decide


/-- SSE4.1 without AVX. -/
def Cfg.sse41Only : Cfg := { Cfg.sse2Only with sse3 := true, ssse3 := true, sse41 := true }
/-- VSX 2.07. -/
def Cfg.vsx207Only : Cfg := { Cfg.altivecOnly with vsx206 := true, vsx207 := true }
theorem Cfg.sse41Only_ok : Cfg.sse41Only.Ok := by constructor <;> decide
theorem Cfg.vsx207Only_ok : Cfg.vsx207Only.Ok := by constructor <;> decide

end Simdpp
