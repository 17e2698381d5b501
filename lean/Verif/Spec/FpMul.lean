import Verif.Spec.Fp

/-!
# Specification: product and fused multiply-add

As in `Spec/Fp.lean`, numbers are integers in units of the least positive number, so the exact product of two numbers is
`num x * num y` in units of the square of that: `2 ^ unit` times finer.
-/

namespace Simdpp.Spec.Fp
open Flt
variable {w : Nat}

/-- `x * y`: the number nearest to the exact product; a zero product has the sign of the product. -/
def mul (x y : BitVec w) : BitVec w :=
  if isNaN x || isNaN y then nan w
  else if isInf x || isInf y then
    if decide (mag x = 0) || decide (mag y = 0) then nan w else mk w (x.msb != y.msb) (infBits w)
  else if num x * num y = 0 then mk w (x.msb != y.msb) 0
  else round w (unit w) (num x * num y)

/-- `x * y + z` with one rounding: the number nearest to the exact result. -/
def fma (x y z : BitVec w) : BitVec w :=
  if isNaN x || isNaN y || isNaN z then nan w
  else if isInf x || isInf y then
    if decide (mag x = 0) || decide (mag y = 0) then nan w
    else if isInf z && ((x.msb != y.msb) != z.msb) then nan w
    else mk w (x.msb != y.msb) (infBits w)
  else if isInf z then z
  else
    let e := num x * num y + num z * 2 ^ unit w
    if e = 0 then mk w (if num x * num y = 0 then (x.msb != y.msb) && z.msb else false) 0
    else round w (unit w) e

/-- The same number, not minding the sign of zero. -/
def SameUpToZero (r s : BitVec w) : Prop := r = s ∨ (mag r = 0 ∧ mag s = 0)

end Simdpp.Spec.Fp
