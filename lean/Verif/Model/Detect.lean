import Verif.Model.Dispatch
import Mathlib.Data.List.Basic

/-!
# CPU feature detection (`simdpp/dispatch/get_arch_*.h`)

Strings are lists of characters (C strings: no NUL inside).
-/

namespace Simdpp.Dispatch

open Arch

/-- `a_sse2 ... a_avx512vl`: each instruction set together with the ones it implies.
Models /repo/simdpp/dispatch/get_arch_linux_cpuinfo.h:45-58 and, identically,
/repo/simdpp/dispatch/get_arch_string_list.h:44-57. -/
def a_sse2 : Arch := X86_SSE2
/-- get_arch_linux_cpuinfo.h:46 -/
def a_sse3 : Arch := a_sse2 ||| X86_SSE3
/-- get_arch_linux_cpuinfo.h:47 -/
def a_ssse3 : Arch := a_sse3 ||| X86_SSSE3
/-- get_arch_linux_cpuinfo.h:48 -/
def a_sse4_1 : Arch := a_ssse3 ||| X86_SSE4_1
/-- get_arch_linux_cpuinfo.h:49 -/
def a_popcnt : Arch := X86_POPCNT_INSN
/-- get_arch_linux_cpuinfo.h:50 -/
def a_avx : Arch := a_sse4_1 ||| X86_AVX
/-- get_arch_linux_cpuinfo.h:51 -/
def a_avx2 : Arch := a_avx ||| X86_AVX2
/-- get_arch_linux_cpuinfo.h:52 -/
def a_fma3 : Arch := a_sse3 ||| X86_FMA3
/-- get_arch_linux_cpuinfo.h:53 -/
def a_fma4 : Arch := a_sse3 ||| X86_FMA4
/-- get_arch_linux_cpuinfo.h:54 -/
def a_xop : Arch := a_sse3 ||| X86_XOP
/-- get_arch_linux_cpuinfo.h:55 -/
def a_avx512f : Arch := a_avx2 ||| X86_AVX512F
/-- get_arch_linux_cpuinfo.h:56 -/
def a_avx512bw : Arch := a_avx512f ||| X86_AVX512BW
/-- get_arch_linux_cpuinfo.h:57 -/
def a_avx512dq : Arch := a_avx512f ||| X86_AVX512DQ
/-- get_arch_linux_cpuinfo.h:58 -/
def a_avx512vl : Arch := a_avx512f ||| X86_AVX512VL

/-- Processor the program is compiled for (`__arm__`, `__aarch64__`, `__i386__ || __amd64__`,
`SIMDPP_PPC`, `SIMDPP_MIPS`). -/
inductive Target | arm32 | arm64 | x86 | ppc | mips
deriving DecidableEq

/-- The identifying prefix of the line. Models /repo/simdpp/dispatch/get_arch_linux_cpuinfo.h:37,41,60.
`none`: not one of the supported targets (lines 75-77). -/
def cpuinfo_ident : Target → Option (List Char)
  | .arm32 => some "Features\t".toList
  | .arm64 => some "Features\t".toList
  | .x86 => some "flags\t".toList
  | _ => none

/-- The `features` map (all keys distinct). Models
/repo/simdpp/dispatch/get_arch_linux_cpuinfo.h:38,42,61-74. -/
def cpuinfo_features : Target → List (List Char × Arch)
  | .arm32 => [("neon".toList, ARM_NEON ||| ARM_NEON_FLT_SP)]
  | .arm64 => [("asimd".toList, ARM_NEON ||| ARM_NEON_FLT_SP)]
  | .x86 => [("sse2".toList, a_sse2), ("pni".toList, a_sse3), ("ssse3".toList, a_ssse3),
      ("sse4_1".toList, a_sse4_1), ("avx".toList, a_avx), ("avx2".toList, a_avx2),
      ("popcnt".toList, a_popcnt), ("fma".toList, a_fma3), ("fma4".toList, a_fma4),
      ("xop".toList, a_xop), ("avx512f".toList, a_avx512f), ("avx512bw".toList, a_avx512bw),
      ("avx512dq".toList, a_avx512dq), ("avx512vl".toList, a_avx512vl)]
  | _ => []

/-- `std::getline` until end of file: the lines of the text without their newline; a last line
without newline counts unless empty. `cur` is the (reversed) line being read. Models the loop head
/repo/simdpp/dispatch/get_arch_linux_cpuinfo.h:86. -/
def getlines (cur : List Char) : List Char → List (List Char)
  | [] => if cur = [] then [] else [cur.reverse]
  | c :: cs => if c = '\n' then cur.reverse :: getlines [] cs else getlines (c :: cur) cs

/-- `std::isspace` in the C locale. -/
def isSpace (c : Char) : Bool := c == ' ' || c == '\t' || c == '\n' || c == '\x0b' || c == '\x0c' || c == '\r'

/-- `istream_iterator<string>`: skip white space, read up to white space, repeat. `cur` is the
(reversed) word being read.
Models /repo/simdpp/dispatch/get_arch_linux_cpuinfo.h:97-102. -/
def readWords (cur : List Char) : List Char → List (List Char)
  | [] => if cur = [] then [] else [cur.reverse]
  | c :: cs =>
    if isSpace c then (if cur = [] then readWords [] cs else cur.reverse :: readWords [] cs)
    else readWords (c :: cur) cs

/-- The item loop: `res |= it->second` for each item found in the map.
Models /repo/simdpp/dispatch/get_arch_linux_cpuinfo.h:105-111. -/
def addItems (features : List (List Char × Arch)) : List (List Char) → Arch → Arch
  | [], res => res
  | item :: items, res =>
    match features.lookup item with
    | none => addItems features items res
    | some a => addItems features items (res ||| a)

/-- The line loop. Lines shorter than `ident` or not starting with it are skipped.
Models /repo/simdpp/dispatch/get_arch_linux_cpuinfo.h:86-112. -/
def cpuinfoLoop (ident : List Char) (features : List (List Char × Arch)) : List (List Char) → Arch → Arch
  | [], res => res
  | line :: lines, res =>
    if line.length < ident.length then cpuinfoLoop ident features lines res
    else if line.take ident.length ≠ ident then cpuinfoLoop ident features lines res
    else cpuinfoLoop ident features lines (addItems features (readWords [] (line.drop ident.length)) res)

/-- `get_arch_linux_cpuinfo()`; `text = none` if /proc/cpuinfo cannot be opened.
Models /repo/simdpp/dispatch/get_arch_linux_cpuinfo.h:29-115. -/
def get_arch_linux_cpuinfo (t : Target) (text : Option (List Char)) : Arch :=
  match cpuinfo_ident t, text with
  | none, _ => NONE_NULL
  | some _, none => NONE_NULL
  | some ident, some txt => cpuinfoLoop ident (cpuinfo_features t) (getlines [] txt) NONE_NULL

/-! ## String lists -/

/-- Models /repo/simdpp/dispatch/get_arch_string_list.h:37-82. -/
def string_features : Target → List (List Char × Arch)
  | .arm32 => [("neon".toList, ARM_NEON), ("neonfltsp".toList, ARM_NEON ||| ARM_NEON_FLT_SP)]
  | .arm64 => [("neon".toList, ARM_NEON ||| ARM_NEON_FLT_SP), ("neonfltsp".toList, ARM_NEON ||| ARM_NEON_FLT_SP)]
  | .x86 => [("sse2".toList, a_sse2), ("sse3".toList, a_sse3), ("ssse3".toList, a_ssse3),
      ("sse4p1".toList, a_sse4_1), ("popcnt".toList, a_popcnt), ("avx".toList, a_avx),
      ("avx2".toList, a_avx2), ("fma3".toList, a_fma3), ("fma4".toList, a_fma4),
      ("xop".toList, a_xop), ("avx512f".toList, a_avx512f), ("avx512bw".toList, a_avx512bw),
      ("avx512dq".toList, a_avx512dq), ("avx512vl".toList, a_avx512vl)]
  | .ppc => [("altivec".toList, POWER_ALTIVEC), ("vsx_206".toList, POWER_ALTIVEC ||| POWER_VSX_206),
      ("vsx_207".toList, POWER_ALTIVEC ||| POWER_VSX_206 ||| POWER_VSX_207)]
  | .mips => [("msa".toList, MIPS_MSA)]

/-- The inner loop: `if (strcmp(s, feature.id) == 0) res |= feature.arch`.
Models /repo/simdpp/dispatch/get_arch_string_list.h:102-105. -/
def orFeatures (s : List Char) : List (List Char × Arch) → Arch → Arch
  | [], res => res
  | (id, a) :: fs, res => orFeatures s fs (if s = id then res ||| a else res)

/-- The outer loop. Models /repo/simdpp/dispatch/get_arch_string_list.h:88-106. -/
def stringLoop (features : List (List Char × Arch)) (pre : List Char) : List (List Char) → Arch → Arch
  | [], res => res
  | s :: ss, res =>
    if s.length < pre.length then stringLoop features pre ss res
    else if s.take pre.length ≠ pre then stringLoop features pre ss res
    else stringLoop features pre ss (orFeatures (s.drop pre.length) features res)

/-- `get_arch_string_list(strings, count, prefix)`; `pre = none` is a null `prefix`.
Models /repo/simdpp/dispatch/get_arch_string_list.h:21-109. -/
def get_arch_string_list (t : Target) (strings : List (List Char)) (pre : Option (List Char)) : Arch :=
  stringLoop (string_features t) (pre.getD []) strings NONE_NULL

/-! ## `__builtin_cpu_supports` -/

/-- `get_arch_gcc_builtin_cpu_supports()`; `sup` is the builtin; `gcc5` is `__GNUC__ > 4`.
Models /repo/simdpp/dispatch/get_arch_gcc_builtin_cpu_supports.h:21-68. -/
def get_arch_gcc_builtin (gcc5 : Bool) (sup : String → Bool) : Arch :=
  let arch_info : Arch := NONE_NULL
  let arch_info :=
    if gcc5 && sup "avx512f" then
      arch_info ||| X86_SSE2 ||| X86_SSE3 ||| X86_SSSE3 ||| X86_SSE4_1 ||| X86_AVX ||| X86_AVX2 ||| X86_FMA3 ||| X86_AVX512F
    else if sup "avx2" then
      arch_info ||| X86_SSE2 ||| X86_SSE3 ||| X86_SSSE3 ||| X86_SSE4_1 ||| X86_AVX ||| X86_AVX2
    else if sup "avx" then arch_info ||| X86_SSE2 ||| X86_SSE3 ||| X86_SSSE3 ||| X86_SSE4_1 ||| X86_AVX
    else if sup "sse4.1" then arch_info ||| X86_SSE2 ||| X86_SSE3 ||| X86_SSSE3 ||| X86_SSE4_1
    else if sup "ssse3" then arch_info ||| X86_SSE2 ||| X86_SSE3 ||| X86_SSSE3
    else if sup "sse3" then arch_info ||| X86_SSE3 ||| X86_SSE2
    else if sup "sse2" then arch_info ||| X86_SSE2
    else arch_info
  if sup "popcnt" then arch_info ||| X86_POPCNT_INSN else arch_info

/-! ## Raw CPUID -/

/-- What `cpuid` returns. -/
structure Regs where
  eax : BitVec 32
  ebx : BitVec 32
  ecx : BitVec 32
  edx : BitVec 32

/-- A machine as seen by user code: the `cpuid` instruction (level, subleaf) and the `xgetbv`
instruction, which faults (`none`) when the OS has not enabled it. -/
structure Machine where
  cpuid : BitVec 32 → BitVec 32 → Regs
  xgetbv : BitVec 32 → Option (BitVec 64)

/-- Models /repo/simdpp/dispatch/get_arch_raw_cpuid.h:76-90: `true` for "GenuineIntel" (the AMD
result is never used). -/
def isIntel (r : Regs) : Bool := r.ebx == 0x756E6547#32 && r.ecx == 0x6C65746E#32 && r.edx == 0x49656E69#32

/-- `if (reg & (1u << k)) arch_info |= a`. -/
def orIf (b : Bool) (a : Arch) (info : Arch) : Arch := if b then info ||| a else info

/-- Bits taken from leaf 1. Models /repo/simdpp/dispatch/get_arch_raw_cpuid.h:115-128, 136-137. -/
def leaf1Info (r : Regs) (intel xsave : Bool) (info : Arch) : Arch :=
  let info := orIf (r.edx.getLsbD 26) X86_SSE2 info
  let info := orIf (r.ecx.getLsbD 0) X86_SSE3 info
  let info := orIf (r.ecx.getLsbD 9) X86_SSSE3 info
  let info := orIf (r.ecx.getLsbD 19) X86_SSE4_1 info
  let info := orIf (r.ecx.getLsbD 20 && intel) X86_POPCNT_INSN info
  let info := orIf (r.ecx.getLsbD 23) X86_POPCNT_INSN info
  let info := orIf (r.ecx.getLsbD 12) X86_FMA3 info
  orIf (r.ecx.getLsbD 28 && xsave) X86_AVX info

/-- `xsave_xrstore_avail`. Models /repo/simdpp/dispatch/get_arch_raw_cpuid.h:129-134; `none` when
`xgetbv` faults. -/
def xsaveAvail (m : Machine) (r : Regs) : Option Bool :=
  if r.ecx.getLsbD 26 then
    match m.xgetbv 0 with
    | none => none
    | some xcr => some (decide (xcr &&& 6 = 6))
  else some false

/-- Bits taken from leaf 0x80000001. Models /repo/simdpp/dispatch/get_arch_raw_cpuid.h:141-144. -/
def leafExInfo (r : Regs) (info : Arch) : Arch :=
  orIf (r.ecx.getLsbD 11) X86_XOP (orIf (r.ecx.getLsbD 16) X86_FMA4 info)

/-- Bits taken from leaf 7. Models /repo/simdpp/dispatch/get_arch_raw_cpuid.h:149-158. -/
def leaf7Info (r : Regs) (xsave : Bool) (info : Arch) : Arch :=
  let info := orIf (r.ebx.getLsbD 5 && xsave) X86_AVX2 info
  let info := orIf (r.ebx.getLsbD 16 && xsave) X86_AVX512F info
  let info := orIf (r.ebx.getLsbD 30 && xsave) X86_AVX512BW info
  let info := orIf (r.ebx.getLsbD 17 && xsave) X86_AVX512DQ info
  orIf (r.ebx.getLsbD 31 && xsave) X86_AVX512VL info

/-- `get_arch_raw_cpuid()`; `none`: the process is killed by the fault in `xgetbv`.
Models /repo/simdpp/dispatch/get_arch_raw_cpuid.h:97-162. -/
def get_arch_raw_cpuid (m : Machine) : Option Arch :=
  let max_cpuid_level := (m.cpuid 0 0).eax
  let intel := isIntel (m.cpuid 0 0)
  let max_ex_cpuid_level := (m.cpuid 0x80000000 0).eax
  match (if 1 ≤ max_cpuid_level.toNat then xsaveAvail m (m.cpuid 1 0) else some false) with
  | none => none
  | some xsave =>
    let info := if 1 ≤ max_cpuid_level.toNat then leaf1Info (m.cpuid 1 0) intel xsave NONE_NULL else NONE_NULL
    let info := if 0x80000001 ≤ max_ex_cpuid_level.toNat then leafExInfo (m.cpuid 0x80000001 0) info else info
    some (if 7 ≤ max_cpuid_level.toNat then leaf7Info (m.cpuid 7 0) xsave info else info)

end Simdpp.Dispatch
