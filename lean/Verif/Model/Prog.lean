import Verif.Model.Array
import Verif.Model.Arith
import Verif.Model.Bitwise
import Verif.Model.Mask
import Verif.Model.Mul
import Verif.Model.Shift
import Verif.Model.Blend
import Verif.Model.MinMax
import Verif.Model.MakeConst
import Verif.Model.Compare
import Verif.Model.Mem
import Verif.Spec.Prog

/-!
# Lane-wise programs (model)

How the library evaluates an expression: operator by operator, each operator register by register through `vec_array_impl`
(`SIMDPP_VEC_ARRAY_IMPL*`). There is no fusion across operators at this commit: the `expr_*` classes of /repo/simdpp/expr are unused, so every
operator sees the finished registers of its operands.
-/

namespace Simdpp
open Spec Spec.Prog

variable {w L K : Nat}

/-- A value in registers: `K` vectors or `K` masks of `L` lanes. -/
abbrev PVal (w L K : Nat) : Ty → Type
  | .vec _ => Fin K → Vec w L
  | .mask => Fin K → Mask w L

/-- The library entry point for each relation (`cmp_eq`, …), integer operands of signedness `s`.
Dispatches to the models of /repo/simdpp/core/cmp_*.h → /repo/simdpp/detail/insn/cmp_*.h. -/
def cmpInt {n : Nat} (c : Cfg) (R : Rel) (s : Bool) (r : Reg) (a b : Vec w n) : Option (Mask w n) :=
  match R with
  | .eq => i_cmp_eq c r a b
  | .ne => i_cmp_neq c r a b
  | .lt => i_cmp_lt c s r a b
  | .le => i_cmp_le c s r a b
  | .gt => i_cmp_gt c s r a b
  | .ge => i_cmp_ge c s r a b

/-- The library entry point for each relation, floating-point operands.
Dispatches to the models of /repo/simdpp/core/cmp_*.h → /repo/simdpp/detail/insn/cmp_*.h. -/
def cmpFlt {n : Nat} (c : Cfg) (R : Rel) (r : Reg) (a b : Vec w n) : Option (Mask w n) :=
  match R with
  | .eq => f_cmp_eq c r a b
  | .ne => f_cmp_neq c r a b
  | .lt => f_cmp_lt c r a b
  | .le => f_cmp_le c r a b
  | .gt => f_cmp_gt c r a b
  | .ge => f_cmp_ge c r a b

/-- `mul_lo`: 16- and 32-bit lanes. Models /repo/simdpp/core/i_mul.h:36-48, 114-125 and
/repo/simdpp/operators/i_mul.h. -/
def mulLoW (c : Cfg) (r : Reg) : {w : Nat} → (a b : Vec w L) → Option (Vec w L)
  | 16, a, b => i_mul_lo16 c r a b
  | 32, a, b => i_mul_lo32 c r a b
  | _, _, _ => none

/-- `mul_hi`: 16-bit lanes. Models /repo/simdpp/core/i_mul.h:63-98. -/
def mulHiW (c : Cfg) (s : Bool) (r : Reg) : {w : Nat} → (a b : Vec w L) → Option (Vec w L)
  | 16, a, b => i_mul_hi c s r a b
  | _, _, _ => none

/-- One register of a binary operator. Models /repo/simdpp/core/i_add.h, i_sub.h, i_mul.h, bit_and.h, bit_or.h, bit_xor.h, bit_andnot.h:
the operands are converted to the (unsigned) vector type of the expression, then handed to `detail::insn`. -/
def Spec.Prog.Op2.run (c : Cfg) (r : Reg) (o : Op2) (a b : Vec w L) : Option (Vec w L) :=
  match o with
  | .add => i_iadd c r a b
  | .sub => i_isub c r a b
  | .mul => mulLoW c r a b
  | .and => i_bit_and c .int r a b
  | .or => i_bit_or c .int r a b
  | .xor => i_bit_xor c .int r a b
  | .andnot => i_bit_andnot c .int r a b

/-- One register of a binary function. Models /repo/simdpp/core/i_min.h, i_max.h, i_add_sat.h, i_sub_sat.h, i_avg.h, i_avg_trunc.h, i_mul.h. -/
def Spec.Prog.Fn2.run (c : Cfg) (r : Reg) (s : Bool) (f : Fn2) (a b : Vec w L) : Option (Vec w L) :=
  match f with
  | .min => i_min c s r a b
  | .max => i_max c s r a b
  | .addSat => if w = 8 ∨ w = 16 then i_add_sat c s r a b else none
  | .subSat => if w = 8 ∨ w = 16 then i_sub_sat c s r a b else none
  | .avg => if w = 64 then none else i_avg c s r a b
  | .avgTrunc => if w = 64 then none else i_avg_trunc c s r a b
  | .mulHi => mulHiW c s r a b

/-- One register of a mask operator. Models /repo/simdpp/core/bit_and.h, bit_or.h, bit_xor.h, bit_andnot.h on masks. -/
def Spec.Prog.OpM.run (c : Cfg) (r : Reg) (o : OpM) (a b : Mask w L) : Option (Mask w L) :=
  match o with
  | .and => i_bit_and_mm c .int r a b
  | .or => i_bit_or_mm c .int r a b
  | .xor => i_bit_xor_mm c .int r a b
  | .andnot => i_bit_andnot_mm c .int r a b

/-- Evaluate an expression on `K` registers. `jv`, `jm` are the uninitialised contents of the result arrays.
Models /repo/simdpp/detail/vector_array_macros.h (`SIMDPP_VEC_ARRAY_IMPL1`, `2`, `3`) around each operator, the operators of
/repo/simdpp/operators/*.h and functions of /repo/simdpp/core/*.h, and for constants /repo/simdpp/detail/insn/make_const.h:497-523. -/
def Spec.Prog.Exp.run {sg : Nat → Bool} (c : Cfg) (r : Reg) (jv : Fin K → Vec w L) (jm : Fin K → Mask w L) (env : Nat → Fin K → Vec w L) :
    {t : Ty} → Exp sg t → Option (PVal w L K t)
  | _, .var x => some (env x)
  | _, .lit s v => Arr.apply1 (fun k : Nat => i_make_const_int (M := 1) c r (fun _ => ⟨if s then C.int64 else C.uint64, val s v⟩) (0 + L * k))
      (fun k => k.val) 0 jv
  | _, .op2 o a b => do Arr.apply2 (o.run c r) (← a.run c r jv jm env) (← b.run c r jv jm env) 0 jv
  | _, .fn2 (s := s) f a b => do Arr.apply2 (f.run c r s) (← a.run c r jv jm env) (← b.run c r jv jm env) 0 jv
  | _, .not a => do Arr.apply1 (i_bit_not c .int r) (← a.run c r jv jm env) 0 jv
  | _, .neg a => do Arr.apply1 (i_ineg c r) (← a.run c r jv jm env) 0 jv
  | _, .abs a => do Arr.apply1 (i_iabs c r) (← a.run c r jv jm env) 0 jv
  | _, .shl a k => do Arr.apply2S (i_shift_l c r) (← a.run c r jv jm env) k 0 jv
  | _, .shr (s := s) a k => do Arr.apply2S (i_shift_r c s r) (← a.run c r jv jm env) k 0 jv
  | _, .cast _ a => a.run c r jv jm env
  | _, .cmp (s := s) R a b => do Arr.apply2 (cmpInt c R s r) (← a.run c r jv jm env) (← b.run c r jv jm env) 0 jm
  | _, .opm o a b => do Arr.apply2 (o.run c r) (← a.run c r jv jm env) (← b.run c r jv jm env) 0 jm
  | _, .notm a => do Arr.apply1 (i_bit_not_m c .int r) (← a.run c r jv jm env) 0 jm
  | _, .andm a m => do Arr.apply2 (i_bit_and_vm c .int r) (← a.run c r jv jm env) (← m.run c r jv jm env) 0 jv
  | _, .andnotm a m => do Arr.apply2 (i_bit_andnot_vm c .int r) (← a.run c r jv jm env) (← m.run c r jv jm env) 0 jv
  | _, .blend a b m => do Arr.apply3 (i_blend_vm c .int r) (← a.run c r jv jm env) (← b.run c r jv jm env) (← m.run c r jv jm env) 0 jv

/-- Evaluate a vector expression on vectors of `N` lanes held in registers `r`: the registers of the variables in, the registers of the result
out (`vec(i)` of the array classes, /repo/simdpp/types/int32.h:59-63). -/
def evalR {sg : Nat → Bool} {N : Nat} (c : Cfg) (r : Reg) (jv : Nat → Vec w (r.lanes w)) (jm : Nat → Mask w (r.lanes w))
    {s : Bool} (e : Exp sg (.vec s)) (env : Nat → Vec w N) : Option (Vec w N) :=
  match e.run c r (K := N / r.lanes w) (fun k => jv k.val) (fun k => jm k.val) (fun x k => Hw.part (r.lanes w) k.val (env x)) with
  | none => none
  | some v => catM (r.lanes w) fun k => if h : k < N / r.lanes w then some (v ⟨k, h⟩) else none

/-- The same in the registers the build uses for the type (/repo/simdpp/types/fwd.h, `typename int32<N>::base_vector_type`). -/
def evalV {sg : Nat → Bool} (c : Cfg) (w N : Nat) (jv : Nat → Vec w ((c.regK .int w N).lanes w)) (jm : Nat → Mask w ((c.regK .int w N).lanes w))
    {s : Bool} (e : Exp sg (.vec s)) (env : Nat → Vec w N) : Option (Vec w N) :=
  evalR c (c.regK .int w N) jv jm e env

/-! ## Array kernels

The canonical client of the library: a loop which loads a vector from each input array, computes, and stores, and a last partial vector stored
with `store_first`. The loop itself is user code; `load`, `store`, `store_first` and the expression are the library's
(/repo/simdpp/core/load.h, store.h, store_first.h). -/

/-- One step: `load` a vector from element `i * N` on of every input array, evaluate with `ev`. Input array `x` starts at address `p x`. -/
def kernelStep (c : Cfg) (k : Kind) (w N V : Nat) (ev : (Nat → Vec w N) → Option (Vec w N)) (p : Nat → Nat) (i : Nat) (m : Mem) : Option (Vec w N) := do
  let v ← lanesM fun x : Fin V => load c k w N m (p x.val + i * (N * (w / 8)))
  ev fun x => if h : x < V then v ⟨x, h⟩ else fun _ => 0

/-- A loop which stores `step i` at element `i * N` of the output, and a last partial vector with `store_first`, for elements of kind `k`
(`s`: signed). Models user code around /repo/simdpp/core/store.h, store_first.h. -/
def kernelG (c : Cfg) (be : Bool) (k : Kind) (s : Bool) (w N : Nat) (step : Nat → Mem → Option (Vec w N)) (q cnt : Nat) (m : Mem) : Option Mem := do
  let m ← loopM (fun i m => do store c k m (q + i * (N * (w / 8))) (← step i m)) 0 (cnt / N) m
  if cnt % N = 0 then some m
  else store_first c be k s m (q + cnt / N * (N * (w / 8))) (← step (cnt / N) m) (cnt % N)

/-- `for (i = 0; i < cnt / N; ++i) store(q + i * N, f(load(p_0 + i * N), ...)); if (cnt % N != 0) store_first(q + i * N, ..., cnt % N);`. -/
def kernel (c : Cfg) (be : Bool) (k : Kind) (s : Bool) (w N V : Nat) (ev : (Nat → Vec w N) → Option (Vec w N)) (p : Nat → Nat) (q cnt : Nat) (m : Mem) :
    Option Mem :=
  kernelG c be k s w N (kernelStep c k w N V ev p) q cnt m

end Simdpp
