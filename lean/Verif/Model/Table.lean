import Verif.Spec.Table
import Verif.Model.Prog
import Verif.Model.Bytes16
import Verif.Model.MakeConst

/-!
# Programs with table lookups (model)

Straight-line user code over `uint8<N>` variables with constants made by `make_uint` as tables and `permute_bytes16`, `permute_zbytes16`, `shuffle_bytes16` as
lookups. The program is user code; the lookups, constants and expressions are the library's.
-/

namespace Simdpp
open Spec Spec.Prog Spec.Table

variable {N : Nat}

/-- A function of two `uint8<N>` of any length, from that on one register.
Models /repo/simdpp/core/permute_bytes16.h:28-34, /repo/simdpp/detail/insn/permute_bytes16.h:71-75 (`SIMDPP_VEC_ARRAY_IMPL2`), permute_zbytes16.h. -/
def bytesV2 (r : Reg) (op : Vec 8 (r.lanes 8) → Vec 8 (r.lanes 8) → Option (Vec 8 (r.lanes 8))) (jv : Nat → Vec 8 (r.lanes 8)) (a mask : Vec 8 N) : Option (Vec 8 N) := do
  let v ← Arr.apply2 op (fun k : Fin (N / r.lanes 8) => Hw.part (r.lanes 8) k.val a) (fun k => Hw.part (r.lanes 8) k.val mask) 0 (fun k => jv k.val)
  catM (r.lanes 8) fun k => if h : k < N / r.lanes 8 then some (v ⟨k, h⟩) else none

/-- The same with three arguments. Models /repo/simdpp/core/shuffle_bytes16.h, /repo/simdpp/detail/insn/shuffle_bytes16.h (`SIMDPP_VEC_ARRAY_IMPL3`). -/
def bytesV3 (r : Reg) (op : Vec 8 (r.lanes 8) → Vec 8 (r.lanes 8) → Vec 8 (r.lanes 8) → Option (Vec 8 (r.lanes 8))) (jv : Nat → Vec 8 (r.lanes 8)) (a b mask : Vec 8 N) :
    Option (Vec 8 N) := do
  let v ← Arr.apply3 op (fun k : Fin (N / r.lanes 8) => Hw.part (r.lanes 8) k.val a) (fun k => Hw.part (r.lanes 8) k.val b)
    (fun k => Hw.part (r.lanes 8) k.val mask) 0 (fun k => jv k.val)
  catM (r.lanes 8) fun k => if h : k < N / r.lanes 8 then some (v ⟨k, h⟩) else none

/-- `make_uint<uint8<N>>(t0, .., t15)`. Models /repo/simdpp/core/make_uint.h. -/
def tableV (c : Cfg) (N : Nat) (T : Fin 16 → BitVec 8) : Option (Vec 8 N) := make_uint (M := 16) c .int 8 N fun i => (T i).setWidth 64

/-- One right-hand side. Models user code around /repo/simdpp/core/permute_bytes16.h, permute_zbytes16.h, shuffle_bytes16.h. -/
def rhsV (c : Cfg) (N : Nat) (jv : Nat → Vec 8 ((c.regK .int 8 N).lanes 8)) (jm : Nat → Mask 8 ((c.regK .int 8 N).lanes 8)) (env : Nat → Vec 8 N) : Rhs → Option (Vec 8 N)
  | .calc e => evalV c 8 N jv jm e env
  | .tab T x => do bytesV2 (c.regK .int 8 N) (i_permute_bytes16 c (c.regK .int 8 N)) jv (← tableV c N T) (env x)
  | .tabz T x => do bytesV2 (c.regK .int 8 N) (i_permute_zbytes16 c (c.regK .int 8 N)) jv (← tableV c N T) (env x)
  | .tab2 T U x => do bytesV3 (c.regK .int 8 N) (i_shuffle_bytes16 c (c.regK .int 8 N)) jv (← tableV c N T) (← tableV c N U) (env x)

/-- The program, statement by statement. Models user code. -/
def runV (c : Cfg) (N : Nat) (jv : Nat → Vec 8 ((c.regK .int 8 N).lanes 8)) (jm : Nat → Mask 8 ((c.regK .int 8 N).lanes 8)) :
    List (Nat × Rhs) → (Nat → Vec 8 N) → Option (Nat → Vec 8 N)
  | [], env => some env
  | s :: t, env => do runV c N jv jm t (Spec.Table.set env s.1 (← rhsV c N jv jm env s.2))

/-- The value of variable `y` after the program. Models user code. -/
def progV (c : Cfg) (N : Nat) (jv : Nat → Vec 8 ((c.regK .int 8 N).lanes 8)) (jm : Nat → Mask 8 ((c.regK .int 8 N).lanes 8)) (P : List (Nat × Rhs)) (y : Nat)
    (env : Nat → Vec 8 N) : Option (Vec 8 N) := do
  some ((← runV c N jv jm P env) y)

end Simdpp
