import Verif.Spec.Search
import Verif.Model.Prog
import Verif.Model.FProg
import Verif.Model.ExtractBits

/-!
# Searching an array (model)

Loops which leave as soon as a vector has an element with a given property: `find`, `strlen`, `memchr`, `any_of`. The loops are user code; `load`, the
condition, the conversion of the mask, `extract_bits_any` and `test_bits_any` are the library's.
-/

namespace Simdpp
open Spec Spec.Prog

variable {w : Nat}

/-- Evaluate a condition on vectors of `N` lanes held in registers `r` and convert the mask to a vector.
Models the operators as in `evalR`, and `mask_int32<N>::unmask()`, /repo/simdpp/types/int8.h:151-158 and the same lines of int16.h, int32.h, int64.h. -/
def condR {sg : Nat → Bool} {N : Nat} (c : Cfg) (r : Reg) (jv : Nat → Vec w (r.lanes w)) (jm : Nat → Mask w (r.lanes w)) (e : Exp sg .mask) (env : Nat → Vec w N) :
    Option (Vec w N) :=
  match e.run c r (K := N / r.lanes w) (fun k => jv k.val) (fun k => jm k.val) (fun x k => Hw.part (r.lanes w) k.val (env x)) with
  | none => none
  | some v => catM (r.lanes w) fun k => if h : k < N / r.lanes w then some (v ⟨k, h⟩).unmask else none

/-- The same in the registers the build uses for the type (/repo/simdpp/types/fwd.h). -/
def condV {sg : Nat → Bool} (c : Cfg) (w N : Nat) (jv : Nat → Vec w ((c.regK .int w N).lanes w)) (jm : Nat → Mask w ((c.regK .int w N).lanes w)) (e : Exp sg .mask)
    (env : Nat → Vec w N) : Option (Vec w N) :=
  condR c (c.regK .int w N) jv jm e env

/-- The same for conditions on floating-point vectors. Models the operators as in `evalFR`, and `mask_float32<N>::unmask()`, /repo/simdpp/types/float32.h:107-114,
/repo/simdpp/types/float64.h. -/
def condFR {N : Nat} (c : Cfg) (E : Est) (r : Reg) (jv : Nat → Vec w (r.lanes w)) (jm : Nat → Mask w (r.lanes w)) (e : Spec.FProg.FExp w .mask) (env : Nat → Vec w N) :
    Option (Vec w N) :=
  match e.run c E r (K := N / r.lanes w) (fun k => jv k.val) (fun k => jm k.val) (fun x k => Hw.part (r.lanes w) k.val (env x)) with
  | none => none
  | some v => catM (r.lanes w) fun k => if h : k < N / r.lanes w then some (v ⟨k, h⟩).unmask else none

/-- The same in the registers the build uses for the type (/repo/simdpp/types/fwd.h). -/
def condF (c : Cfg) (E : Est) (w N : Nat) (jv : Nat → Vec w ((c.regK .flt w N).lanes w)) (jm : Nat → Mask w ((c.regK .flt w N).lanes w)) (e : Spec.FProg.FExp w .mask)
    (env : Nat → Vec w N) : Option (Vec w N) :=
  condFR c E (c.regK .flt w N) jv jm e env

/-- `test_bits_any` of a vector of `N` elements. Models /repo/simdpp/core/test_bits.h, /repo/simdpp/detail/insn/test_bits.h:142-150. -/
def test_any {N : Nat} (c : Cfg) (k : Kind) (v : Vec w N) : Option Bool :=
  match N / (c.regK k w N).lanes w with
  | 0 => none
  | K + 1 => i_test_bits_any_long c k (c.regK k w N) fun j : Fin (K + 1) => Hw.part ((c.regK k w N).lanes w) j.val v

/-- `for (k = i; k < i + n; ++k) if (step(k, &result)) return result;`. Models user code. -/
def scanM {α : Type} (stp : Nat → Option (Option α)) : Nat → Nat → Option (Option α)
  | _, 0 => some none
  | i, n + 1 => do
    match ← stp i with
    | some a => some (some a)
    | none => scanM stp (i + 1) n

/-- The number of the lowest bit set, e.g. `__builtin_ctz(b)`. Models user code. -/
def ctz (b : Nat) : Nat := if h : b = 0 then 0 else if b % 2 = 1 then 0 else ctz (b / 2) + 1
termination_by b
decreasing_by omega

/-- The position of the first element:
`for (i = 0; i < (cnt + N - 1) / N; ++i) { bits = extract_bits_any(condition(load(p + i * N)).unmask()); if (bits) return min(i * N + ctz(bits), cnt); } return cnt;`.
A floating-point vector is reinterpreted as a vector of integers by `extract_bits_any`.
Models user code around /repo/simdpp/core/load.h, /repo/simdpp/core/extract_bits.h. -/
def findFirst (c : Cfg) (k : Kind) (w N V : Nat) (ev : (Nat → Vec w N) → Option (Vec w N)) (p : Nat → Nat) (cnt : Nat) (m : Mem) : Option Nat := do
  let r ← scanM (fun i => do
    let v ← kernelStep c k w N V ev p i m
    let b ← extract_bits_any c w N v
    some (if b = 0 then none else some (i * N + ctz b))) 0 ((cnt + (N - 1)) / N)
  match r with
  | none => some cnt
  | some j => some (min j cnt)

/-- The first of `n` vectors with such an element:
`for (i = 0; i < n; ++i) if (test_bits_any(condition(load(p + i * N)).unmask())) break; return i;`.
Models user code around /repo/simdpp/core/load.h, /repo/simdpp/core/test_bits.h. -/
def findBlock (c : Cfg) (k : Kind) (w N V : Nat) (ev : (Nat → Vec w N) → Option (Vec w N)) (p : Nat → Nat) (n : Nat) (m : Mem) : Option Nat := do
  let r ← scanM (fun i => do
    let v ← kernelStep c k w N V ev p i m
    let b ← test_any c k v
    some (if b then some i else none)) 0 n
  some (r.getD n)

end Simdpp
