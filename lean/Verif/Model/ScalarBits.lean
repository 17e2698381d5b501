import Verif.Model.MakeConst
import Verif.Model.Bitwise

/-!
# Bitwise operations with a scalar operand

`bit_and(v, 0x7fffffff)` and the like: unlike the arithmetic operations (`scalarArg`), the scalar stands for its bits, also for a
floating-point vector.
-/

namespace Simdpp

/-- `make_const_bitwise<V>(uint64_t t)`: `scalar_convert` takes the low bits of `t` to the element type (a `bit_cast` for `float` and `double`,
a conversion for integers; `s`: signed elements), then `i_make_const` of one value.
Models /repo/simdpp/detail/expr/scalar.h:24-28, 43-51. -/
def make_const_bitwise (c : Cfg) (k : Kind) (s : Bool) (w N : Nat) (t : BitVec 64) : Option (Vec w N) :=
  match k with
  | .int => make_const_int (M := 1) c w N fun _ => C.lane s (t.setWidth w)
  | .flt => make_const_flt (M := 1) c w N id fun _ => t.setWidth w

/-- The bitwise operations. -/
inductive BitOp | and | or | xor | andnot
deriving DecidableEq, Repr

/-- One register. Models /repo/simdpp/core/bit_and.h, bit_or.h, bit_xor.h, bit_andnot.h. -/
def BitOp.run {w n : Nat} (c : Cfg) (k : Kind) (r : Reg) (o : BitOp) (a b : Vec w n) : Option (Vec w n) :=
  match o with
  | .and => i_bit_and c k r a b
  | .or => i_bit_or c k r a b
  | .xor => i_bit_xor c k r a b
  | .andnot => i_bit_andnot c k r a b

/-- `cast_int(x)`: `int` and `long` go through the unsigned type of the same size, so they are zero-extended.
Models /repo/simdpp/detail/expr/scalar.h:30-41. -/
def cast_int (q : C.Val) : BitVec 64 := (C.bitsOf q.ty q.v).setWidth 64

/-- The `uint64_t` passed to `make_const_bitwise`: `cast_int(q)` in bit_and.h:47-165, bit_or.h:46-164, bit_andnot.h:46-164 of
/repo/simdpp/core, the implicit conversion of `q` in /repo/simdpp/core/bit_xor.h:45-120. -/
def BitOp.arg (o : BitOp) (q : C.Val) : BitVec 64 :=
  match o with
  | .xor => C.toLane 64 q
  | _ => cast_int q

/-- `bit_op(v, q)` (`left = false`) or `bit_op(q, v)` for a scalar `q` of type `int`, `unsigned`, `long`, ...
Models /repo/simdpp/core/bit_and.h:47-165 and the same in bit_or.h, bit_xor.h, bit_andnot.h (the operators of
/repo/simdpp/operators/bit_and.h, bit_or.h, bit_xor.h call these), over the registers of the vector (`SIMDPP_VEC_ARRAY_IMPL2`).
`v` is not a mask. -/
def bitScalar {w N : Nat} (c : Cfg) (k : Kind) (s : Bool) (o : BitOp) (left : Bool) (a : Vec w N) (q : C.Val) : Option (Vec w N) := do
  let b : Vec w N ← make_const_bitwise c k s w N (o.arg q)
  let r := c.regK k w N
  catM (r.lanes w) fun j =>
    if left then o.run c k r (Hw.part (r.lanes w) j b) (Hw.part (r.lanes w) j a)
    else o.run c k r (Hw.part (r.lanes w) j a) (Hw.part (r.lanes w) j b)

end Simdpp
