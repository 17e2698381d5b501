import Verif.Spec.MProg
import Verif.Model.Prog
import Verif.Model.FProg
import Verif.Model.Conv
import Verif.Model.FConv
import Verif.Model.Cast

/-!
# Programs over several element types (model)

How the library evaluates them: every conversion and bit cast is a function of the whole vector, which goes from the registers of the source type
to the registers of the result type; integer and floating-point expressions in between are evaluated as in `Model/Prog.lean`, `Model/FProg.lean`.
-/

namespace Simdpp
open Spec Spec.Prog Spec.FProg Spec.MProg

variable {N : Nat}

/-- The kind of registers of an element type. -/
def Spec.MProg.ETy.kind : ETy → Kind | .int _ _ => .int | .flt _ => .flt

/-- The conversion functions, by type of the argument and of the result: `to_int8`, .., `to_uint64`, `to_float32`, `to_float64`.
A conversion to the type itself is a copy.
Models /repo/simdpp/core/to_int8.h, to_int16.h, to_int32.h, to_int64.h, to_float32.h, to_float64.h (the overloads) on top of
/repo/simdpp/detail/insn/conv_*.h. -/
def convertV (c : Cfg) (N : Nat) : (t t' : ETy) → Vec t.w N → Option (Vec t'.w N)
  | .int s u, .int _ v, a => to_int c s u.n v.n a
  | .int s .b8, .flt .f32, a => i_narrow_f32 c s 8 a
  | .int s .b16, .flt .f32, a => i_narrow_f32 c s 16 a
  | .int s .b32, .flt .f32, a => i_i32f32 c s a
  | .int s .b64, .flt .f32, a => i_i64f32 c s a
  | .int s .b8, .flt .f64, a => i_narrow_f64 c s 8 a
  | .int s .b16, .flt .f64, a => i_narrow_f64 c s 16 a
  | .int s .b32, .flt .f64, a => i_i32f64 c s a
  | .int s .b64, .flt .f64, a => i_i64f64 c s a
  | .flt f, .int _ .b8, a => i_f2i8 c f.n a
  | .flt f, .int _ .b16, a => i_f2i16 c f.n a
  | .flt .f32, .int s .b32, a => i_f32i32 c s a
  | .flt .f64, .int s .b32, a => i_f64i32 c s a
  | .flt .f32, .int s .b64, a => i_f32i64 c s a
  | .flt .f64, .int s .b64, a => i_f64i64 c s a
  | .flt .f32, .flt .f32, a => some a
  | .flt .f64, .flt .f64, a => some a
  | .flt .f32, .flt .f64, a => i_f32f64 c a
  | .flt .f64, .flt .f32, a => i_f64f32 c a

/-- `bit_cast<R>(a)` between whole vectors held in registers `r` and `r'`; `j` is the uninitialised result.
Models /repo/simdpp/core/cast.h:45-75, /repo/simdpp/detail/cast.inl:35-84, /repo/simdpp/detail/cast_bitwise.h:374-390. -/
def bitCastR {w : Nat} (v : Nat) (r r' : Reg) (j : Nat → Vec v (r'.lanes v)) (a : Vec w N) : Option (Vec v N) :=
  match Cast.cast_bitwise_vector (kT := N / r.lanes w) (kR := N / r'.lanes v) (fun k => Hw.part (r.lanes w) k.val a) (fun k => j k.val) with
  | none => none
  | some b => catM (r'.lanes v) fun k => if h : k < N / r'.lanes v then some (b ⟨k, h⟩) else none

/-- The uninitialised contents of the result arrays of each element type. -/
structure Junk (c : Cfg) (N : Nat) where
  vec : (k : Kind) → (w : Nat) → Nat → Vec w ((c.regK k w N).lanes w)
  mask : (k : Kind) → (w : Nat) → Nat → Mask w ((c.regK k w N).lanes w)

/-- Evaluate an expression on vectors of `N` lanes: the arguments of integer and floating-point subexpressions first, as vectors of the
subexpression's element type. Models the call structure of user code (function composition); the functions are those of
/repo/simdpp/core/*.h, see `convertV`, `bitCastR`, `evalV`, `evalF`. -/
def Spec.MProg.MExp.run {Γ : Nat → ETy} (c : Cfg) (E : Est) (J : Junk c N) (env : (x : Nat) → Vec (Γ x).w N) :
    {t : ETy} → MExp Γ t → Option (Vec t.w N)
  | _, .var x => some (env x)
  | _, .ints (u := u) V _ e arg => do
    let a ← lanesM fun x : Fin V => (arg x).run c E J env
    evalV c u.n N (J.vec .int u.n) (J.mask .int u.n) e fun x => if h : x < V then a ⟨x, h⟩ else fun _ => 0
  | _, .flts (f := f) V e arg => do
    let a ← lanesM fun x : Fin V => (arg x).run c E J env
    evalF c E f.n N (J.vec .flt f.n) (J.mask .flt f.n) e fun x => if h : x < V then a ⟨x, h⟩ else fun _ => 0
  | _, .conv (t := t) t' a => do convertV c N t t' (← a.run c E J env)
  | _, .bits (t := t) t' _ a => do bitCastR t'.w (c.regK t.kind t.w N) (c.regK t'.kind t'.w N) (J.vec t'.kind t'.w) (← a.run c E J env)

/-! ## Array kernels over several element types -/

/-- Vectors loaded one after the other, each of its own element type. -/
def loadsM {Γ : Nat → ETy} (c : Cfg) (N : Nat) (p : Nat → Nat) (i : Nat) (m : Mem) : (V : Nat) → Option ((x : Nat) → Vec (Γ x).w N)
  | 0 => some fun _ _ => 0
  | V + 1 => do
    let a ← loadsM (Γ := Γ) c N p i m V
    let b ← load c (Γ V).kind (Γ V).w N m (p V + i * (N * ((Γ V).w / 8)))
    some fun x => if h : x = V then h ▸ b else a x

/-- One step: `load` a vector from element `i * N` on of every input array, of the element type of that array, and evaluate.
Models user code around /repo/simdpp/core/load.h. -/
def mkernelStep {Γ : Nat → ETy} {t : ETy} (c : Cfg) (E : Est) (J : Junk c N) (V : Nat) (e : MExp Γ t) (p : Nat → Nat) (i : Nat) (m : Mem) :
    Option (Vec t.w N) := do
  e.run c E J (← loadsM c N p i m V)

/-- Signedness, for `store_first`'s overload. -/
def Spec.MProg.ETy.signed : ETy → Bool | .int s _ => s | .flt _ => true

/-- `for (i = 0; i < cnt / N; ++i) store(q + i * N, f(load(p_0 + i * N), ...)); if (cnt % N != 0) store_first(q + i * N, ..., cnt % N);`
where the arrays have different element types. -/
def mkernel {Γ : Nat → ETy} {t : ETy} (c : Cfg) (be : Bool) (E : Est) (J : Junk c N) (V : Nat) (e : MExp Γ t) (p : Nat → Nat) (q cnt : Nat) (m : Mem) :
    Option Mem :=
  kernelG c be t.kind t.signed t.w N (mkernelStep c E J V e p) q cnt m

end Simdpp
