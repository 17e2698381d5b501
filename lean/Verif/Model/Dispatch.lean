import Mathlib.Data.BitVec
import Mathlib.Data.List.Basic

/-!
# Dynamic dispatch (`simdpp/dispatch/{arch,dispatcher,make_dispatcher}.h`)
-/

namespace Simdpp.Dispatch

/-- `enum class Arch : uint32_t`. Models /repo/simdpp/dispatch/arch.h:25-76. -/
abbrev Arch := BitVec 32

namespace Arch
/-- Models /repo/simdpp/dispatch/arch.h:27. -/
def NONE_NULL : Arch := 0
/-- Models /repo/simdpp/dispatch/arch.h:29. -/
def X86_SSE2 : Arch := 1#32 <<< 1
/-- Models /repo/simdpp/dispatch/arch.h:31. -/
def X86_SSE3 : Arch := 1#32 <<< 2
/-- Models /repo/simdpp/dispatch/arch.h:33. -/
def X86_SSSE3 : Arch := 1#32 <<< 3
/-- Models /repo/simdpp/dispatch/arch.h:35. -/
def X86_SSE4_1 : Arch := 1#32 <<< 4
/-- Models /repo/simdpp/dispatch/arch.h:38. -/
def X86_POPCNT_INSN : Arch := 1#32 <<< 5
/-- Models /repo/simdpp/dispatch/arch.h:40. -/
def X86_AVX : Arch := 1#32 <<< 6
/-- Models /repo/simdpp/dispatch/arch.h:42. -/
def X86_AVX2 : Arch := 1#32 <<< 7
/-- Models /repo/simdpp/dispatch/arch.h:44. -/
def X86_FMA3 : Arch := 1#32 <<< 8
/-- Models /repo/simdpp/dispatch/arch.h:46. -/
def X86_FMA4 : Arch := 1#32 <<< 9
/-- Models /repo/simdpp/dispatch/arch.h:48. -/
def X86_XOP : Arch := 1#32 <<< 10
/-- Models /repo/simdpp/dispatch/arch.h:50. -/
def X86_AVX512F : Arch := 1#32 <<< 11
/-- Models /repo/simdpp/dispatch/arch.h:52. -/
def X86_AVX512BW : Arch := 1#32 <<< 12
/-- Models /repo/simdpp/dispatch/arch.h:54. -/
def X86_AVX512DQ : Arch := 1#32 <<< 13
/-- Models /repo/simdpp/dispatch/arch.h:56. -/
def X86_AVX512VL : Arch := 1#32 <<< 14
/-- Models /repo/simdpp/dispatch/arch.h:60. -/
def ARM_NEON : Arch := 1#32 <<< 0
/-- Models /repo/simdpp/dispatch/arch.h:63. -/
def ARM_NEON_FLT_SP : Arch := 1#32 <<< 1
/-- Models /repo/simdpp/dispatch/arch.h:66. -/
def POWER_ALTIVEC : Arch := 1#32 <<< 0
/-- Models /repo/simdpp/dispatch/arch.h:69. -/
def POWER_VSX_206 : Arch := 1#32 <<< 1
/-- Models /repo/simdpp/dispatch/arch.h:72. -/
def POWER_VSX_207 : Arch := 1#32 <<< 2
/-- Models /repo/simdpp/dispatch/arch.h:75. -/
def MIPS_MSA : Arch := 1#32 <<< 0
end Arch

/-- `test_arch_subset(current, required)`. Models /repo/simdpp/dispatch/arch.h:111-118. -/
def test_arch_subset (current required : Arch) : Bool :=
  if (~~~current &&& required) = Arch.NONE_NULL then true else false

/-- `FnVersion`; `fun_ptr = none` is `nullptr`. The name field (line 67) is not used
by selection and is left out. Models /repo/simdpp/dispatch/dispatcher.h:48-68. -/
structure FnVersion (F : Type) where
  needed_arch : Arch
  fun_ptr : Option F
deriving DecidableEq

/-- What `std::sort(versions, versions + size, [](l, r){ return l.needed_arch > r.needed_arch; })`
guarantees: a permutation of the array in which no later element compares before an earlier one.
`std::sort` is not stable, so the order of equal requirements is left open.
Models /repo/simdpp/dispatch/dispatcher.h:74-77. -/
structure StdSorted {F : Type} (versions sorted : List (FnVersion F)) : Prop where
  perm : sorted.Perm versions
  order : sorted.Pairwise fun l r => ¬ (l.needed_arch.toNat < r.needed_arch.toNat)

/-- The loop of `select_version_any` over the sorted array: entries with a null function are
skipped, the first whose requirements are met is returned. `none` is the `std::abort()` branch.
Models /repo/simdpp/dispatch/dispatcher.h:79-92. -/
def select_loop {F : Type} (arch : Arch) : List (FnVersion F) → Option (FnVersion F)
  | [] => none
  | v :: vs =>
    if v.fun_ptr.isNone then select_loop arch vs
    else if test_arch_subset arch v.needed_arch then some v
    else select_loop arch vs

/-- `select_version_any(versions, size, arch)` may return `r` (`none`: abort).
Models /repo/simdpp/dispatch/dispatcher.h:70-93. -/
def SelectsAny {F : Type} (versions : List (FnVersion F)) (arch : Arch) (r : Option (FnVersion F)) : Prop :=
  ∃ sorted, StdSorted versions sorted ∧ select_loop arch sorted = r

/-! ## The dispatcher function

`SIMDPP_MAKE_DISPATCHER` expands to a function with `static FunPtr selected = nullptr;` and the
code below, run by any number of threads. Each access to `selected` is one atomic step of a
thread; steps of different threads interleave arbitrarily (sequential consistency). The variable is
not atomic in C++, so two conflicting unordered accesses are a data race; `Race` below says when
a state has one.
-/

/-- Where a thread is inside the generated function. `F` is the type of function pointers. -/
inductive Pc (F : Type)
  /-- not inside the function -/
  | idle
  /-- about to read `selected` for `if (selected == nullptr)` (make_dispatcher.h:272) -/
  | test
  /-- saw null; collecting versions and calling select_version_any (273-278) -/
  | select
  /-- about to write `selected = f` (279) -/
  | store (f : Option F)
  /-- about to read `selected` for the call (281) -/
  | load
  /-- about to call `f`; `none` would be a call through a null pointer (281) -/
  | call (f : Option F)
deriving DecidableEq

/-- State shared by all threads: the static variable, the threads, the calls made so far
(most recent first), and whether `std::abort()` was called. -/
structure State (T F : Type) where
  selected : Option F
  pc : T → Pc F
  calls : List (T × Option F)
  aborted : Bool

/-- The state at program start: `static FunPtr selected = nullptr;`.
Models /repo/simdpp/dispatch/make_dispatcher.h:271. -/
def init (T F : Type) : State T F := ⟨none, fun _ => .idle, [], false⟩

/-- One step of thread `t`. `Sel r` says that the call of `select_version_any` on the collected
versions with `SIMDPP_USER_ARCH_INFO` may return `r` (`none`: it aborts).
Models /repo/simdpp/dispatch/make_dispatcher.h:267-282. -/
inductive Step {T F : Type} [DecidableEq T] (Sel : Option (FnVersion F) → Prop) (t : T) :
    State T F → State T F → Prop
  | enter (s) : s.aborted = false → s.pc t = .idle →
      Step Sel t s { s with pc := Function.update s.pc t .test }
  | testNull (s) : s.aborted = false → s.pc t = .test → s.selected = none →
      Step Sel t s { s with pc := Function.update s.pc t .select }
  | testSet (s) (f) : s.aborted = false → s.pc t = .test → s.selected = some f →
      Step Sel t s { s with pc := Function.update s.pc t .load }
  | selectOk (s) (v) : s.aborted = false → s.pc t = .select → Sel (some v) →
      Step Sel t s { s with pc := Function.update s.pc t (.store v.fun_ptr) }
  | selectAbort (s) : s.aborted = false → s.pc t = .select → Sel none →
      Step Sel t s { s with aborted := true }
  | store (s) (f) : s.aborted = false → s.pc t = .store f →
      Step Sel t s { s with selected := f, pc := Function.update s.pc t .load }
  | load (s) : s.aborted = false → s.pc t = .load →
      Step Sel t s { s with pc := Function.update s.pc t (.call s.selected) }
  | call (s) (f) : s.aborted = false → s.pc t = .call f →
      Step Sel t s { s with calls := (t, f) :: s.calls, pc := Function.update s.pc t .idle }

/-- `s'` is reached from `s` by some interleaving of any threads. -/
inductive Steps {T F : Type} [DecidableEq T] (Sel : Option (FnVersion F) → Prop) :
    State T F → State T F → Prop
  | refl (s) : Steps Sel s s
  | tail {s s' s'' : State T F} (t : T) : Steps Sel s s' → Step Sel t s' s'' → Steps Sel s s''

/-- States reachable from program start. -/
def Reach {T F : Type} [DecidableEq T] (Sel : Option (FnVersion F) → Prop) (s : State T F) : Prop :=
  Steps Sel (init T F) s

/-- A data race in the sense of C++ [intro.multithread]: two different threads are each about to
access the non-atomic `selected`, and one access is a write. -/
def Race {T F : Type} (s : State T F) : Prop :=
  ∃ t u : T, t ≠ u ∧ (∃ f, s.pc t = .store f) ∧
    ((∃ g, s.pc u = .store g) ∨ s.pc u = .test ∨ s.pc u = .load)

end Simdpp.Dispatch
