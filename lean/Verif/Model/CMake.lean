import Verif.Model.MultiArch

/-!
# The CMake functions which generate multi-architecture builds (`cmake/SimdppMultiarch.cmake`)

CMake values are strings; they are modelled as lists of characters, CMake lists as lists of strings (the `;` that separates elements is
not modelled, nor the brackets which suppress the splitting). A CMake function sees the variables of its caller, so the two functions
which `list(APPEND ARCHS ...)` without initialising `ARCHS` take the caller's value as the parameter `ambient`.
-/

namespace Simdpp.CMake

open ArchSel

/-- A string constant as a list of characters. -/
macro "cs!" s:str : term => do
  let xs := (s.getString.toList.map fun c => Lean.Syntax.mkCharLit c).toArray
  `(([$xs,*] : List Char))

/-- The architecture identifiers, in the order of `SIMDPP_ARCHS` (primary, then secondary).
Models the `list(APPEND SIMDPP_ARCHS_PRI ...)` of /repo/cmake/SimdppMultiarch.cmake:61-912 and line 961. -/
inductive Id
  | X86_SSE2 | X86_SSE3 | X86_SSSE3 | X86_SSE4_1 | X86_POPCNT_INSN | X86_AVX | X86_AVX2 | X86_FMA3 | X86_FMA4 | X86_XOP
  | X86_AVX512F | X86_AVX512BW | X86_AVX512DQ | X86_AVX512VL | ARM_NEON | ARM64_NEON | MIPS_MSA | POWER_ALTIVEC | POWER_VSX_206
  | POWER_VSX_207 | ARM_NEON_FLT_SP
deriving DecidableEq, Repr

/-- `SIMDPP_ARCHS_PRI`. Models /repo/cmake/SimdppMultiarch.cmake:61-912. -/
def primary : List Id :=
  [.X86_SSE2, .X86_SSE3, .X86_SSSE3, .X86_SSE4_1, .X86_POPCNT_INSN, .X86_AVX, .X86_AVX2, .X86_FMA3, .X86_FMA4, .X86_XOP,
   .X86_AVX512F, .X86_AVX512BW, .X86_AVX512DQ, .X86_AVX512VL, .ARM_NEON, .ARM64_NEON, .MIPS_MSA, .POWER_ALTIVEC, .POWER_VSX_206,
   .POWER_VSX_207]

/-- `SIMDPP_ARCHS`. Models /repo/cmake/SimdppMultiarch.cmake:731, 961. -/
def allIds : List Id := primary ++ [.ARM_NEON_FLT_SP]

/-- The name of an identifier, as the user writes it. -/
def Id.name : Id → List Char
  | .X86_SSE2 => cs! "X86_SSE2"
  | .X86_SSE3 => cs! "X86_SSE3"
  | .X86_SSSE3 => cs! "X86_SSSE3"
  | .X86_SSE4_1 => cs! "X86_SSE4_1"
  | .X86_POPCNT_INSN => cs! "X86_POPCNT_INSN"
  | .X86_AVX => cs! "X86_AVX"
  | .X86_AVX2 => cs! "X86_AVX2"
  | .X86_FMA3 => cs! "X86_FMA3"
  | .X86_FMA4 => cs! "X86_FMA4"
  | .X86_XOP => cs! "X86_XOP"
  | .X86_AVX512F => cs! "X86_AVX512F"
  | .X86_AVX512BW => cs! "X86_AVX512BW"
  | .X86_AVX512DQ => cs! "X86_AVX512DQ"
  | .X86_AVX512VL => cs! "X86_AVX512VL"
  | .ARM_NEON => cs! "ARM_NEON"
  | .ARM64_NEON => cs! "ARM64_NEON"
  | .MIPS_MSA => cs! "MIPS_MSA"
  | .POWER_ALTIVEC => cs! "POWER_ALTIVEC"
  | .POWER_VSX_206 => cs! "POWER_VSX_206"
  | .POWER_VSX_207 => cs! "POWER_VSX_207"
  | .ARM_NEON_FLT_SP => cs! "ARM_NEON_FLT_SP"

/-- `SIMDPP_<ID>_DEFINE`. Models the `_DEFINE` lines of /repo/cmake/SimdppMultiarch.cmake:67-914; note line 744. -/
def Id.define : Id → List Char
  | .X86_SSE2 => cs! "SIMDPP_ARCH_X86_SSE2"
  | .X86_SSE3 => cs! "SIMDPP_ARCH_X86_SSE3"
  | .X86_SSSE3 => cs! "SIMDPP_ARCH_X86_SSSE3"
  | .X86_SSE4_1 => cs! "SIMDPP_ARCH_X86_SSE4_1"
  | .X86_POPCNT_INSN => cs! "SIMDPP_ARCH_X86_POPCNT_INSN"
  | .X86_AVX => cs! "SIMDPP_ARCH_X86_AVX"
  | .X86_AVX2 => cs! "SIMDPP_ARCH_X86_AVX2"
  | .X86_FMA3 => cs! "SIMDPP_ARCH_X86_FMA3"
  | .X86_FMA4 => cs! "SIMDPP_ARCH_X86_FMA4"
  | .X86_XOP => cs! "SIMDPP_ARCH_X86_XOP"
  | .X86_AVX512F => cs! "SIMDPP_ARCH_X86_AVX512F"
  | .X86_AVX512BW => cs! "SIMDPP_ARCH_X86_AVX512BW"
  | .X86_AVX512DQ => cs! "SIMDPP_ARCH_X86_AVX512DQ"
  | .X86_AVX512VL => cs! "SIMDPP_ARCH_X86_AVX512VL"
  | .ARM_NEON => cs! "SIMDPP_ARCH_ARM_NEON"
  | .ARM64_NEON => cs! "SIMDPP_ARCH_ARM_NEON"
  | .MIPS_MSA => cs! "SIMDPP_ARCH_MIPS_MSA"
  | .POWER_ALTIVEC => cs! "SIMDPP_ARCH_POWER_ALTIVEC"
  | .POWER_VSX_206 => cs! "SIMDPP_ARCH_POWER_VSX_206"
  | .POWER_VSX_207 => cs! "SIMDPP_ARCH_POWER_VSX_207"
  | .ARM_NEON_FLT_SP => cs! "SIMDPP_ARCH_ARM_NEON_FLT_SP"

/-- `SIMDPP_<ID>_SUFFIX`. Models the `_SUFFIX` lines of /repo/cmake/SimdppMultiarch.cmake:68-915. -/
def Id.suffix : Id → List Char
  | .X86_SSE2 => cs! "-x86_sse2"
  | .X86_SSE3 => cs! "-x86_sse3"
  | .X86_SSSE3 => cs! "-x86_ssse3"
  | .X86_SSE4_1 => cs! "-x86_sse4_1"
  | .X86_POPCNT_INSN => cs! "-x86_popcnt"
  | .X86_AVX => cs! "-x86_avx"
  | .X86_AVX2 => cs! "-x86_avx2"
  | .X86_FMA3 => cs! "-x86_fma3"
  | .X86_FMA4 => cs! "-x86_fma4"
  | .X86_XOP => cs! "-x86_xop"
  | .X86_AVX512F => cs! "-x86_avx512f"
  | .X86_AVX512BW => cs! "-x86_avx512bw"
  | .X86_AVX512DQ => cs! "-x86_avx512dq"
  | .X86_AVX512VL => cs! "-x86_avx512vl"
  | .ARM_NEON => cs! "-arm_neon"
  | .ARM64_NEON => cs! "-arm64_neon"
  | .MIPS_MSA => cs! "-mips_msa"
  | .POWER_ALTIVEC => cs! "-power_altivec"
  | .POWER_VSX_206 => cs! "-power_vsx_2.06"
  | .POWER_VSX_207 => cs! "-power_vsx_2.07"
  | .ARM_NEON_FLT_SP => cs! "-arm_neon_flt_sp"

/-- `list(FIND SIMDPP_ARCHS "${ID}" FOUND)`. Models /repo/cmake/SimdppMultiarch.cmake:990. -/
def findId (s : List Char) : Option Id := allIds.find? fun i => i.name = s

/-- Cut a string at the separators. -/
def split (p : Char → Bool) : List Char → List (List Char)
  | [] => [[]]
  | c :: l =>
    if p c then [] :: split p l
    else
      match split p l with
      | [] => [[c]]
      | x :: xs => (c :: x) :: xs

/-- The elements of a list expanded without quotes (`foreach(ID ${ARCH_IDS})`, or the words of a command line): empty ones vanish. -/
def words (p : Char → Bool) (s : List Char) : List (List Char) := (split p s).filter (· ≠ [])

/-- String comparison, by character codes (`list(SORT)`). -/
def strLe : List Char → List Char → Bool
  | [], _ => true
  | _ :: _, [] => false
  | a :: s, b :: t => if a = b then strLe s t else decide (a.toNat ≤ b.toNat)

/-- Insertion into a sorted list. -/
def insertStr (s : List Char) : List (List Char) → List (List Char)
  | [] => [s]
  | t :: l => if strLe s t then s :: t :: l else t :: insertStr s l

/-- `list(SORT ...)`. -/
def sortStr : List (List Char) → List (List Char)
  | [] => []
  | s :: l => insertStr s (sortStr l)

/-- What `simdpp_get_arch_info` returns: `CXX_FLAGS`, `DEFINES_LIST`, `UNIQUE_ID`. -/
structure Info where
  flags : List Char
  defines : List (List Char)
  unique : List Char

/-- The body of the loop. Models /repo/cmake/SimdppMultiarch.cmake:986-999. -/
def infoStep (cxx : Id → List Char) (r : Info) (s : List Char) : Info :=
  if s = cs! "NONE_NULL" then { r with unique := r.unique ++ cs! "-null" }
  else
    match findId s with
    | none => r
    | some i =>
      { defines := r.defines ++ [i.define]
        flags := r.flags ++ cs! " " ++ cxx i ++ cs! " -D" ++ i.define
        unique := r.unique ++ i.suffix }

/-- Elements joined by a comma. -/
def commas : List (List Char) → List Char
  | [] => []
  | [s] => s
  | s :: t :: l => s ++ ',' :: commas (t :: l)

/-- `simdpp_get_arch_info(CXX_FLAGS_VAR DEFINES_LIST_VAR UNIQUE_ID_VAR ARCH)`. `cxx` are the compiler flags `SIMDPP_<ID>_CXX_FLAGS`, which
depend on the compiler. Models /repo/cmake/SimdppMultiarch.cmake:978-1004. -/
def simdpp_get_arch_info (cxx : Id → List Char) (arch : List Char) : Info :=
  (sortStr (words (· = ',') arch)).foldl (infoStep cxx) ⟨[], [], []⟩

/-- A decimal number (`math(EXPR ...)`). -/
def digits (n : Nat) : List Char :=
  if n < 10 then [Char.ofNat (48 + n)] else digits (n / 10) ++ [Char.ofNat (48 + n % 10)]

/-- The source file and the directories. -/
structure Src where
  sourceDir : List Char
  binaryDir : List Char
  path : List Char
  name : List Char
  ext : List Char

/-- The state of the loop of `simdpp_multiarch`: `FILE_LIST`, the property `COMPILE_FLAGS` of each source file, `DISPATCHER_FILE`,
`DISPATCHER_CXX_FLAGS` and `DISPATCH_ARCH_IDX`. -/
structure State where
  files : List (List Char)
  props : List Char → List Char
  dispatcher : List Char
  dflags : List Char
  idx : Nat

/-- The name of a generated file. Models /repo/cmake/SimdppMultiarch.cmake:1062. -/
def dstFile (s : Src) (suffix : List Char) : List Char :=
  s.binaryDir ++ cs! "/" ++ s.path ++ cs! "/" ++ s.name ++ cs! "_simdpp_" ++ suffix ++ s.ext

/-- `-I"${CMAKE_CURRENT_SOURCE_DIR}/${SRC_PATH}"`. -/
def incFlag (s : Src) : List Char := cs! "-I\"" ++ s.sourceDir ++ cs! "/" ++ s.path ++ cs! "\""

/-- The body of the loop over the architectures. Models /repo/cmake/SimdppMultiarch.cmake:1056-1089. -/
def archStep (cxx : Id → List Char) (s : Src) (st : State) (arch : List Char) : State :=
  let info := simdpp_get_arch_info cxx arch
  let flags := incFlag s ++ cs! " " ++ info.flags
  if info.unique = [] then st
  else
    let dst := dstFile s info.unique
    { files := st.files ++ [dst]
      props := fun f => if f = dst then flags else st.props f
      dispatcher := if st.dispatcher = [] then dst else st.dispatcher
      dflags := st.dflags ++ cs! " -DSIMDPP_DISPATCH_ARCH" ++ digits st.idx ++ cs! "=" ++ commas info.defines
      idx := st.idx + 1 }

/-- `simdpp_multiarch(FILE_LIST_VAR SRC_FILE [ARCH...])`: the generated files and their `COMPILE_FLAGS`. `ambient` is the value of the
variable `ARCHS` in the caller's scope, `props0` the `COMPILE_FLAGS` the files had before. Models
/repo/cmake/SimdppMultiarch.cmake:1041-1101. -/
def simdpp_multiarch (cxx : Id → List Char) (s : Src) (props0 : List Char → List Char) (ambient : List (List Char))
    (fileListVar srcFile : List Char) (archs : List (List Char)) : List (List Char) × (List Char → List Char) :=
  let all := (ambient ++ [fileListVar, srcFile] ++ archs).drop 2
  let st := all.foldl (archStep cxx s) ⟨[], props0, [], cs! "-DSIMDPP_EMIT_DISPATCHER=1", 1⟩
  if st.dispatcher = [] then (st.files, st.props)
  else (st.files, fun f => if f = st.dispatcher then st.props f ++ st.dflags else st.props f)

/-! ### The default lists of architectures -/

/-- `if(cond) list(APPEND ALL_ARCHS x)`. -/
def whenA (b : Bool) (l : List (List Char)) : List (List Char) := if b then l else []

/-- `simdpp_get_arch_perm(ALL_ARCHS_VAR ARCH...)`; `ambient` is `ARCHS` in the caller's scope, `self` the name given as `ALL_ARCHS_VAR`.
`sup i` is `DEFINED ARCH_SUPPORTED_<i>` (no such variable in the caller's scope). Models /repo/cmake/SimdppMultiarch.cmake:1111-1221. -/
def simdpp_get_arch_perm (ambient : List (List Char)) (self : List Char) (archs : List (List Char)) : List (List Char) :=
  let all := (ambient ++ [self] ++ archs).drop 1
  let sup (i : Id) : Bool := decide (i.name ∈ all)
  [cs! "NONE_NULL"] ++
    whenA (sup .X86_SSE2) [cs! "X86_SSE2"] ++
    whenA (sup .X86_SSE3) [cs! "X86_SSE3"] ++
    whenA (sup .X86_SSSE3) [cs! "X86_SSSE3"] ++
    whenA (sup .X86_SSE4_1) [cs! "X86_SSE4_1"] ++
    whenA (sup .X86_AVX)
      ([cs! "X86_AVX,X86_POPCNT_INSN"] ++ whenA (sup .X86_FMA4) [cs! "X86_AVX,X86_FMA4,X86_POPCNT_INSN"]) ++
    whenA (sup .X86_AVX2) (whenA (sup .X86_FMA3) [cs! "X86_AVX2,X86_FMA3,X86_POPCNT_INSN"]) ++
    whenA (sup .X86_AVX512F)
      ([cs! "X86_AVX512F,X86_FMA3,X86_POPCNT_INSN"] ++
        whenA (sup .X86_AVX512BW) (whenA (sup .X86_AVX512DQ) (whenA (sup .X86_AVX512VL)
          [cs! "X86_AVX512F,X86_FMA3,X86_POPCNT_INSN,X86_AVX512BW,X86_AVX512DQ,X86_AVX512VL"]))) ++
    whenA (sup .X86_XOP) ([cs! "X86_XOP"] ++ whenA (sup .X86_AVX) [cs! "X86_AVX,X86_XOP"]) ++
    whenA (sup .ARM_NEON) ([cs! "ARM_NEON"] ++ [cs! "ARM_NEON_FLT_SP"]) ++
    whenA (sup .ARM64_NEON) [cs! "ARM64_NEON"] ++
    whenA (sup .MIPS_MSA) [cs! "MIPS_MSA"] ++
    whenA (sup .POWER_ALTIVEC) [cs! "POWER_ALTIVEC"] ++
    whenA (sup .POWER_VSX_206) [cs! "POWER_VSX_206"] ++
    whenA (sup .POWER_VSX_207) [cs! "POWER_VSX_207"]

/-- `simdpp_get_compilable_archs(ARCH_LIST_VAR)` and `simdpp_get_runnable_archs(ARCH_LIST_VAR)`: `can i` is the result of the check of
identifier `i` (`check_cxx_source_compiles`, `check_cxx_source_runs`), `ambient` the caller's `ARCHS`. Models
/repo/cmake/SimdppMultiarch.cmake:1234-1247 and 1261-1274. -/
def simdpp_get_archs (can : Id → Bool) (ambient : List (List Char)) : List (List Char) :=
  let archs := ambient ++ (primary.filter can).map Id.name
  simdpp_get_arch_perm archs (cs! "ALL_ARCHS") archs

/-! ### What the compiler makes of the flags -/

/-- A character of an identifier. -/
def identChar (c : Char) : Bool := c.isAlphanum || c = '_'

/-- A command line word `-DNAME`, `-DNAME=VALUE`: `NAME` is the longest identifier; `-DNAME` defines it as 1; other characters after the
name start the value. -/
def macroDef : List Char → Option (List Char × List Char)
  | '-' :: 'D' :: t =>
    some (t.takeWhile identChar,
      match t.dropWhile identChar with
      | [] => cs! "1"
      | '=' :: v => v
      | v => v)
  | _ => none

/-- The macros a `COMPILE_FLAGS` string defines, in order. -/
def defs (flags : List Char) : List (List Char × List Char) := (words (· = ' ') flags).filterMap macroDef

/-- The value of a macro: the last definition on the command line. -/
def lookup (flags n : List Char) : Option (List Char) := ((defs flags).reverse.find? fun d => d.1 = n).map Prod.snd

/-- The macro which requests an instruction set. Models the names in /repo/simdpp/detail/preprocess_single_arch.h:272-351 and
/repo/simdpp/detail/insn_id.h:59-79. -/
def macroName : Insn → List Char
  | .sse2 => cs! "SIMDPP_ARCH_X86_SSE2"
  | .sse3 => cs! "SIMDPP_ARCH_X86_SSE3"
  | .ssse3 => cs! "SIMDPP_ARCH_X86_SSSE3"
  | .sse41 => cs! "SIMDPP_ARCH_X86_SSE4_1"
  | .popcnt => cs! "SIMDPP_ARCH_X86_POPCNT_INSN"
  | .avx => cs! "SIMDPP_ARCH_X86_AVX"
  | .avx2 => cs! "SIMDPP_ARCH_X86_AVX2"
  | .fma3 => cs! "SIMDPP_ARCH_X86_FMA3"
  | .fma4 => cs! "SIMDPP_ARCH_X86_FMA4"
  | .xop => cs! "SIMDPP_ARCH_X86_XOP"
  | .avx512f => cs! "SIMDPP_ARCH_X86_AVX512F"
  | .avx512bw => cs! "SIMDPP_ARCH_X86_AVX512BW"
  | .avx512dq => cs! "SIMDPP_ARCH_X86_AVX512DQ"
  | .avx512vl => cs! "SIMDPP_ARCH_X86_AVX512VL"
  | .neon => cs! "SIMDPP_ARCH_ARM_NEON"
  | .neonFltSp => cs! "SIMDPP_ARCH_ARM_NEON_FLT_SP"
  | .altivec => cs! "SIMDPP_ARCH_POWER_ALTIVEC"
  | .vsx206 => cs! "SIMDPP_ARCH_POWER_VSX_206"
  | .vsx207 => cs! "SIMDPP_ARCH_POWER_VSX_207"
  | .msa => cs! "SIMDPP_ARCH_MIPS_MSA"

/-- All instruction sets. -/
def allInsns : List Insn :=
  [.sse2, .sse3, .ssse3, .sse41, .popcnt, .avx, .avx2, .fma3, .fma4, .xop, .avx512f, .avx512bw, .avx512dq, .avx512vl, .neon, .neonFltSp,
   .altivec, .vsx206, .vsx207, .msa]

/-- The macros a unit is compiled with. Models the `#ifdef`s of /repo/simdpp/detail/preprocess_single_arch.h:272-351. -/
def requested (flags : List Char) : ArchSel.Set := fun i => (lookup flags (macroName i)).isSome

/-- The unit contains the dispatcher: `#if SIMDPP_EMIT_DISPATCHER` (the value is 1 whenever the macro is defined by these functions; other
values are not modelled). Models /repo/simdpp/dispatch/make_dispatcher.h:16. -/
def emits (flags : List Char) : Bool := lookup flags (cs! "SIMDPP_EMIT_DISPATCHER") = some (cs! "1")

/-- An entry of a `SIMDPP_DISPATCH_ARCHn` list; an unknown name contributes 0. Models /repo/simdpp/detail/insn_id.h:59-79. -/
def insnOf (s : List Char) : Option Insn := allInsns.find? fun i => macroName i = s

/-- `SIMDPP_DISPATCH_ARCHn` as the preprocessor sees it. Models /repo/simdpp/dispatch/collect_macros_generated.h:28-30. -/
def slotsOf (flags : List Char) (n : Nat) : Option (List Insn) :=
  (lookup flags (cs! "SIMDPP_DISPATCH_ARCH" ++ digits n)).map fun v => (split (· = ',') v).filterMap insnOf

end Simdpp.CMake
