import Verif.Model.Prog
import Verif.Model.FltOps
import Verif.Model.FMul
import Verif.Model.FDiv
import Verif.Spec.FProg

/-!
# Lane-wise floating-point programs (model)

How the library evaluates a floating-point expression: as in `Model/Prog.lean`, operator by operator, each operator register by register
through `vec_array_impl`. There is no contraction of a product and a sum at this level; a compiler which contracts across operators
(`-ffp-contract=fast` on the portable build) is not modelled.
-/

namespace Simdpp
open Spec Spec.FProg

variable {w L K : Nat}

/-- A value in registers: `K` vectors or `K` masks of `L` lanes. -/
abbrev FVal (w L K : Nat) : FTy → Type
  | .vec => Fin K → Vec w L
  | .mask => Fin K → Mask w L

/-- One register of a unary operation. Models /repo/simdpp/core/f_neg.h, f_abs.h, f_sqrt.h, bit_not.h. -/
def Spec.FProg.FOp1.run (c : Cfg) (E : Est) (r : Reg) (o : FOp1) (a : Vec w L) : Option (Vec w L) :=
  match o with
  | .neg => i_fneg c r a
  | .abs => i_fabs c r a
  | .sqrt => i_sqrt c E r a
  | .not => i_bit_not c .flt r a

/-- One register of a binary operation. Models /repo/simdpp/core/f_add.h, f_sub.h, f_mul.h, f_div.h, f_min.h, f_max.h, f_copysign.h,
bit_and.h, bit_or.h, bit_xor.h, bit_andnot.h and /repo/simdpp/operators/*.h. -/
def Spec.FProg.FOp2.run (c : Cfg) (E : Est) (r : Reg) (o : FOp2) (a b : Vec w L) : Option (Vec w L) :=
  match o with
  | .add => i_fadd c r a b
  | .sub => i_fsub c r a b
  | .mul => i_fmul c r a b
  | .div => i_div c E r a b
  | .min => i_fmin c r a b
  | .max => i_fmax c r a b
  | .copysign => Simdpp.copysign c r a b
  | .and => i_bit_and c .flt r a b
  | .or => i_bit_or c .flt r a b
  | .xor => i_bit_xor c .flt r a b
  | .andnot => i_bit_andnot c .flt r a b

/-- One register of a mask operator. Models /repo/simdpp/core/bit_and.h, bit_or.h, bit_xor.h, bit_andnot.h on masks. -/
def Spec.FProg.FOpM.run (c : Cfg) (r : Reg) (o : FOpM) (a b : Mask w L) : Option (Mask w L) :=
  match o with
  | .and => i_bit_and_mm c .flt r a b
  | .or => i_bit_or_mm c .flt r a b
  | .xor => i_bit_xor_mm c .flt r a b
  | .andnot => i_bit_andnot_mm c .flt r a b

/-- Evaluate an expression on `K` registers. `jv`, `jm` are the uninitialised contents of the result arrays, `E` the reciprocal estimates of the
processor. Models /repo/simdpp/detail/vector_array_macros.h (`SIMDPP_VEC_ARRAY_IMPL1`, `2`, `3`) around each operator, the operators of
/repo/simdpp/operators/*.h and functions of /repo/simdpp/core/*.h, and for constants /repo/simdpp/detail/insn/make_const.h:497-523. -/
def Spec.FProg.FExp.run (c : Cfg) (E : Est) (r : Reg) (jv : Fin K → Vec w L) (jm : Fin K → Mask w L) (env : Nat → Fin K → Vec w L) :
    {t : FTy} → FExp w t → Option (FVal w L K t)
  | _, .var x => some (env x)
  | _, .lit v => Arr.apply1 (fun k : Nat => i_make_const_flt (M := 1) c r id (fun _ => v) (0 + L * k)) (fun k => k.val) 0 jv
  | _, .op1 o a => do Arr.apply1 (o.run c E r) (← a.run c E r jv jm env) 0 jv
  | _, .op2 o a b => do Arr.apply2 (o.run c E r) (← a.run c E r jv jm env) (← b.run c E r jv jm env) 0 jv
  | _, .fmadd x y z => do Arr.apply3 (i_fmadd c r) (← x.run c E r jv jm env) (← y.run c E r jv jm env) (← z.run c E r jv jm env) 0 jv
  | _, .fmsub x y z => do Arr.apply3 (i_fmsub c r) (← x.run c E r jv jm env) (← y.run c E r jv jm env) (← z.run c E r jv jm env) 0 jv
  | _, .cmp R a b => do Arr.apply2 (cmpFlt c R r) (← a.run c E r jv jm env) (← b.run c E r jv jm env) 0 jm
  | _, .isnan a => do Arr.apply1 (i_isnan c r) (← a.run c E r jv jm env) 0 jm
  | _, .isfinite a => do Arr.apply1 (Simdpp.isfinite c r) (← a.run c E r jv jm env) 0 jm
  | _, .opm o a b => do Arr.apply2 (o.run c r) (← a.run c E r jv jm env) (← b.run c E r jv jm env) 0 jm
  | _, .notm a => do Arr.apply1 (i_bit_not_m c .flt r) (← a.run c E r jv jm env) 0 jm
  | _, .andm a m => do Arr.apply2 (i_bit_and_vm c .flt r) (← a.run c E r jv jm env) (← m.run c E r jv jm env) 0 jv
  | _, .andnotm a m => do Arr.apply2 (i_bit_andnot_vm c .flt r) (← a.run c E r jv jm env) (← m.run c E r jv jm env) 0 jv
  | _, .blend a b m => do
    Arr.apply3 (i_blend_vm c .flt r) (← a.run c E r jv jm env) (← b.run c E r jv jm env) (← m.run c E r jv jm env) 0 jv

/-- Evaluate a vector expression on vectors of `N` lanes held in registers `r`: the registers of the variables in, the registers of the result
out (`vec(i)` of the array classes, /repo/simdpp/types/float32.h). -/
def evalFR {N : Nat} (c : Cfg) (E : Est) (r : Reg) (jv : Nat → Vec w (r.lanes w)) (jm : Nat → Mask w (r.lanes w)) (e : FExp w .vec)
    (env : Nat → Vec w N) : Option (Vec w N) :=
  match e.run c E r (K := N / r.lanes w) (fun k => jv k.val) (fun k => jm k.val) (fun x k => Hw.part (r.lanes w) k.val (env x)) with
  | none => none
  | some v => catM (r.lanes w) fun k => if h : k < N / r.lanes w then some (v ⟨k, h⟩) else none

/-- The same in the registers the build uses for the type (/repo/simdpp/types/fwd.h). -/
def evalF (c : Cfg) (E : Est) (w N : Nat) (jv : Nat → Vec w ((c.regK .flt w N).lanes w)) (jm : Nat → Mask w ((c.regK .flt w N).lanes w))
    (e : FExp w .vec) (env : Nat → Vec w N) : Option (Vec w N) :=
  evalFR c E (c.regK .flt w N) jv jm e env

end Simdpp
