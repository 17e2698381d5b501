import Verif.Model.MProg
import Verif.Model.ReduceAdd
import Verif.Model.FReduce

/-!
# Array reductions (model)

The second canonical client of the library: a loop which loads a vector from each input array, computes, and accumulates into a vector, and a
horizontal reduction of the accumulator at the end. The loop itself is user code; `load`, the expressions and `reduce_*` are the library's.
-/

namespace Simdpp
open Spec Spec.Prog Spec.FProg Spec.MProg

variable {N : Nat} {Γ : Nat → ETy} {t : ETy}

/-- `acc = init; for (i = 0; i < n; ++i) acc = comb(acc, f(load(p_0 + i * N), ...));`: variable 0 of `comb` is the accumulator, variable 1 the new
vector. `J` are the uninitialised contents of the temporaries of each evaluation.
Models user code around /repo/simdpp/core/load.h and the functions of /repo/simdpp/core/*.h. -/
def foldArr (c : Cfg) (E : Est) (J : Nat → Junk c N) (V : Nat) (e : MExp Γ t) (init comb : MExp (fun _ => t) t) (p : Nat → Nat) (n : Nat) (m : Mem) :
    Option (Vec t.w N) := do
  let a ← init.run c E (J 0) fun _ _ => 0
  loopM (fun i a => do
    let b ← mkernelStep c E (J (2 * i + 1)) V e p i m
    comb.run c E (J (2 * i + 2)) fun x => if x = 0 then a else b) 0 n a

/-- `acc + b`, `max(acc, b)`, ... on integer vectors, assigned back to `acc`. Models /repo/simdpp/operators/i_add.h, bit_or.h, bit_and.h. -/
def accOp (s : Bool) (u : IW) (o : Op2) : MExp (fun _ => .int s u) (.int s u) :=
  .ints 2 (fun _ => s) (.cast s (.op2 o (.var 0) (.var 1))) fun x => .var x.val
/-- Models /repo/simdpp/core/i_max.h, i_min.h. -/
def accFn (s : Bool) (u : IW) (f : Fn2) : MExp (fun _ => .int s u) (.int s u) :=
  .ints 2 (fun _ => s) (.fn2 f (.var 0) (.var 1)) fun x => .var x.val
/-- `acc + b`, `max(acc, b)`, `min(acc, b)` on floating-point vectors. Models /repo/simdpp/operators/f_add.h, /repo/simdpp/core/f_max.h, f_min.h. -/
def accFlt (f : FWd) (o : FOp2) : MExp (fun _ => .flt f) (.flt f) :=
  .flts 2 (.op2 o (.var 0) (.var 1)) fun x => .var x.val
/-- A vector of one number: `make_int(v)`, `make_uint(v)`. Models /repo/simdpp/core/make_int.h, make_uint.h. -/
def accInt (s : Bool) (u : IW) (v : BitVec 64) : MExp (fun _ => .int s u) (.int s u) := .ints 0 (fun _ => s) (.lit s v) nofun
/-- `make_float(v)`. Models /repo/simdpp/core/make_float.h. -/
def accNum (f : FWd) (v : BitVec f.n) : MExp (fun _ => .flt f) (.flt f) := .flts 0 (.lit v) nofun

/-- `acc = make_int(0); for (..) acc = acc + f(..); return reduce_add(acc);` for 32- or 64-bit elements.
Models user code around /repo/simdpp/core/i_reduce_add.h. -/
def sumArr {s : Bool} {u : IW} (c : Cfg) (E : Est) (J : Nat → Junk c N) (V : Nat) (e : MExp Γ (.int s u)) (p : Nat → Nat) (n : Nat) (m : Mem) :
    Option (BitVec u.n) := do
  reduce_add_wide c (← foldArr c E J V e (accInt s u 0) (accOp s u .add) p n m)

/-- The least (`isMax`) or greatest number of the type, as a 64-bit number of the same signedness. -/
def extreme (isMax s : Bool) (u : IW) : BitVec 64 :=
  if isMax then (if s then -(2 ^ (u.n - 1)) else 0) else if s then 2 ^ (u.n - 1) - 1 else 2 ^ u.n - 1

/-- `acc = make_int(least); for (..) acc = max(acc, f(..)); return reduce_max(acc);`, and likewise `min`.
Models user code around /repo/simdpp/core/i_reduce_max.h, i_reduce_min.h. -/
def mmArr {s : Bool} {u : IW} (c : Cfg) (isMax : Bool) (E : Est) (J : Nat → Junk c N) (V : Nat) (e : MExp Γ (.int s u)) (p : Nat → Nat) (n : Nat) (m : Mem) :
    Option (BitVec u.n) := do
  reduce_mm c isMax s (← foldArr c E J V e (accInt s u (extreme isMax s u)) (accFn s u (if isMax then .max else .min)) p n m)

/-- `acc = make_int(0); for (..) acc = acc | f(..); return reduce_or(acc);`, and `reduce_and` from all ones.
Models user code around /repo/simdpp/core/i_reduce_or.h, i_reduce_and.h. -/
def bitArr {s : Bool} {u : IW} (c : Cfg) (isAnd : Bool) (E : Est) (J : Nat → Junk c N) (V : Nat) (e : MExp Γ (.int s u)) (p : Nat → Nat) (n : Nat) (m : Mem) :
    Option (BitVec u.n) := do
  reduce_bit c isAnd (← foldArr c E J V e (accInt s u (if isAnd then BitVec.allOnes 64 else 0)) (accOp s u (if isAnd then .and else .or)) p n m)

/-- `reduce_add`, `reduce_max` and `reduce_min` of floating-point vectors of either size. Models /repo/simdpp/core/f_reduce_add.h, f_reduce_max.h,
f_reduce_min.h. -/
def fredAdd (c : Cfg) (gnuc : Bool) : (f : FWd) → Vec f.n N → Option (BitVec f.n)
  | .f32, a => reduce_fadd32 c gnuc a
  | .f64, a => reduce_fadd64 c a
def fredMM (c : Cfg) (gnuc isMax : Bool) : (f : FWd) → Vec f.n N → Option (BitVec f.n)
  | .f32, a => reduce_fmm32 c gnuc isMax a
  | .f64, a => reduce_fmm64 c isMax a

/-- `acc = make_float(0); for (..) acc = acc + f(..); return reduce_add(acc);`. -/
def fsumArr {f : FWd} (c : Cfg) (gnuc : Bool) (E : Est) (J : Nat → Junk c N) (V : Nat) (e : MExp Γ (.flt f)) (p : Nat → Nat) (n : Nat) (m : Mem) :
    Option (BitVec f.n) := do
  fredAdd c gnuc f (← foldArr c E J V e (accNum f 0) (accFlt f .add) p n m)

/-- `acc = make_float(∓∞); for (..) acc = max(acc, f(..)); return reduce_max(acc);`, and likewise `min`. -/
def fmmArr {f : FWd} (c : Cfg) (gnuc isMax : Bool) (E : Est) (J : Nat → Junk c N) (V : Nat) (e : MExp Γ (.flt f)) (p : Nat → Nat) (n : Nat) (m : Mem) :
    Option (BitVec f.n) := do
  fredMM c gnuc isMax f (← foldArr c E J V e (accNum f (Fp.mk f.n isMax (Flt.infBits f.n))) (accFlt f (if isMax then .max else .min)) p n m)

end Simdpp
