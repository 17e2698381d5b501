import Verif.Model.ArchSel

/-!
# Multi-architecture programs
(`simdpp/detail/insn_id.h`, `simdpp/setup_arch.h`, `simdpp/dispatch/collect_macros_generated.h`, `simdpp/dispatch/make_dispatcher.h`)

One source file is compiled several times, once per set of instruction sets, each time into a namespace whose name is pasted from the
ids of the instruction sets. The dispatcher finds those functions by the same pasted names.
-/

namespace Simdpp.ArchSel

open Dispatch

/-- The id of an instruction set; `none` is NULL. Models /repo/simdpp/detail/insn_id.h:13-33. -/
def insnId : Option Insn → List Char
  | none => ['_', 'n', 'u', 'l', 'l']
  | some .sse2 => ['_', 's', 's', 'e', '2']
  | some .sse3 => ['_', 's', 's', 'e', '3']
  | some .ssse3 => ['_', 's', 's', 's', 'e', '3']
  | some .sse41 => ['_', 's', 's', 'e', '4', 'p', '1']
  | some .popcnt => ['_', 'p', 'o', 'p', 'c', 'n', 't']
  | some .avx => ['_', 'a', 'v', 'x']
  | some .avx2 => ['_', 'a', 'v', 'x', '2']
  | some .fma3 => ['_', 'f', 'm', 'a', '3']
  | some .fma4 => ['_', 'f', 'm', 'a', '4']
  | some .xop => ['_', 'x', 'o', 'p']
  | some .avx512f => ['_', 'a', 'v', 'x', '5', '1', '2', 'f']
  | some .avx512bw => ['_', 'a', 'v', 'x', '5', '1', '2', 'b', 'w']
  | some .avx512dq => ['_', 'a', 'v', 'x', '5', '1', '2', 'd', 'q']
  | some .avx512vl => ['_', 'a', 'v', 'x', '5', '1', '2', 'v', 'l']
  | some .neon => ['_', 'n', 'e', 'o', 'n']
  | some .neonFltSp => ['_', 'n', 'e', 'o', 'n', 'f', 'l', 't', 's', 'p']
  | some .altivec => ['_', 'a', 'l', 't', 'i', 'v', 'e', 'c']
  | some .vsx206 => ['_', 'v', 's', 'x', '_', '2', '0', '6']
  | some .vsx207 => ['_', 'v', 's', 'x', '_', '2', '0', '7']
  | some .msa => ['_', 'm', 's', 'a']

/-- The order of the ids in the pasted name. Models /repo/simdpp/setup_arch.h:233-254 and, in the dispatcher,
/repo/simdpp/dispatch/collect_macros_generated.h:141-162. -/
def nsOrder : List (Option Insn) :=
  [none, some .sse2, some .sse3, some .ssse3, some .sse41, some .popcnt, some .avx, some .avx2, some .avx512f, some .avx512bw,
   some .avx512dq, some .avx512vl, some .fma3, some .fma4, some .xop, some .neon, some .neonFltSp, some .msa, some .altivec,
   some .vsx206, some .vsx207]

/-- `SIMDPP_PP_PASTE22(arch, ...)`: `SIMDPP_ARCH_NAMESPACE` of a translation unit compiled with the set `u`
(/repo/simdpp/setup_arch.h:126-254) and `SIMDPP_DISPATCH_n_NAMESPACE` (/repo/simdpp/dispatch/collect_macros_generated.h:35-162). -/
def nsName (u : Set) : List Char := ['a', 'r', 'c', 'h'] ++ nsOrder.flatMap fun i => if nsIds u i then insnId i else []

/-- A translation unit: the instruction set macros it was compiled with and the function it defines. -/
structure Obj (F : Type) where
  requested : Set
  fn : F

/-- The symbol `NAMESPACE::f` a translation unit defines; `none`: the unit does not compile (`#error`). -/
def Obj.symbol {F : Type} (o : Obj F) : Option (List Char × F) := (preprocess o.requested).map fun u => (nsName u, o.fn)

/-- Linking: the symbols of all units; `none` if a unit does not compile or a symbol is defined twice. -/
def link {F : Type} (objs : List (Obj F)) : Option (List (List Char × F)) :=
  match objs.mapM Obj.symbol with
  | none => none
  | some syms => if (syms.map Prod.fst).Nodup then some syms else none

/-- Look a symbol up. -/
def resolve {F : Type} (syms : List (List Char × F)) (n : List Char) : Option F := (syms.find? fun s => s.1 = n).map Prod.snd

/-- `SIMDPP_DISPATCH_MAX_ARCHS`. Models /repo/simdpp/dispatch/collect_macros_generated.h:25. -/
def maxArchs : Nat := 15

/-- `SIMDPP_DISPATCH_n_FN_REGISTER(versions, NAME, FunPtr)` on the zero-initialised entry: nothing if `SIMDPP_DISPATCH_ARCHn` is not defined,
else the address of the function in the namespace of that list, with `create_fn_version` of the same list. `none`: does not compile or
link. Models /repo/simdpp/dispatch/collect_macros_generated.h:28-184 (the other slots are the same text), the array of
/repo/simdpp/dispatch/make_dispatcher.h:273. -/
def registerSlot {F : Type} (syms : List (List Char × F)) : Option (List Insn) → Option (FnVersion F)
  | none => some ⟨0, none⟩
  | some l =>
    match preprocess (ofList l) with
    | none => none
    | some u => (resolve syms (nsName u)).map fun f => create_fn_version u f

/-- The namespace a slot opens. -/
def slotName (s : Option (List Insn)) : Option (List Char) := (s.bind fun l => preprocess (ofList l)).map nsName

/-- `SIMDPP_DISPATCH_COLLECT_FUNCTIONS(versions, NAME, FunPtr)`: the array of versions. Only the slots `1 ... 15` exist. Two slots with
the same namespace define `create_fn_version` in it twice: a compile error (/repo/simdpp/dispatch/preprocess_single_compile_arch.h:43-123).
Models /repo/simdpp/dispatch/collect_macros_generated.h:2417-2432. -/
def collect {F : Type} (syms : List (List Char × F)) (slots : Nat → Option (List Insn)) : Option (List (FnVersion F)) :=
  let idx := (List.range maxArchs).map (· + 1)
  if ((idx.map fun k => slotName (slots k)).filterMap id).Nodup then idx.mapM fun k => registerSlot syms (slots k) else none

/-- The dispatcher of a program built from the units `objs` with the slots `slots`, on a processor detected as `arch`, may select `r`
(`none`: it aborts). Models /repo/simdpp/dispatch/make_dispatcher.h:270-281. -/
def Dispatches {F : Type} (objs : List (Obj F)) (slots : Nat → Option (List Insn)) (arch : Arch) (r : Option F) : Prop :=
  ∃ syms versions v, link objs = some syms ∧ collect syms slots = some versions ∧ SelectsAny versions arch v ∧ v.bind FnVersion.fun_ptr = r

end Simdpp.ArchSel
