import Verif.Spec.FpMul
import Mathlib.Data.Nat.Sqrt

/-!
# Specification: quotient and square root

A quotient or root of two numbers is in general no multiple of the least positive number. Rounding looks at no more than whether it
lies on, below or above a number or the midpoint of two neighbours, which are all multiples of half the least positive number. So the
exact result is first replaced by an integer number of quarters of the least positive number: itself where it is a multiple of a half,
the odd one between the two surrounding halves otherwise. `Props/FpDiv.lean` proves that the outcome is the nearest number.
-/

namespace Simdpp.Spec.Fp
open Flt
variable {w : Nat}

/-- The quotient `a / b` in quarters, inexact quotients to the odd quarter. -/
def quarters (a b : Nat) : Nat := 2 * (2 * a / b) + if 2 * a % b = 0 then 0 else 1

/-- The square root of `a` in quarters, inexact roots to the odd quarter. -/
def rootQuarters (a : Nat) : Nat := 2 * Nat.sqrt (4 * a) + if Nat.sqrt (4 * a) * Nat.sqrt (4 * a) = 4 * a then 0 else 1

/-- `x / y`: the number nearest to the exact quotient. -/
def div (x y : BitVec w) : BitVec w :=
  if isNaN x || isNaN y then nan w
  else if isInf x then (if isInf y then nan w else mk w (x.msb != y.msb) (infBits w))
  else if isInf y then mk w (x.msb != y.msb) 0
  else if num y = 0 then (if num x = 0 then nan w else mk w (x.msb != y.msb) (infBits w))
  else mk w (x.msb != y.msb) (rndMag w 2 (quarters (numMag w (mag x) * 2 ^ unit w) (numMag w (mag y))))

/-- `sqrt(x)`: the number nearest to the exact root; NaN for negative numbers; the root of a zero is that zero. -/
def sqrt (x : BitVec w) : BitVec w :=
  if isNaN x then nan w
  else if num x = 0 then x
  else if x.msb then nan w
  else if isInf x then x
  else mk w false (rndMag w 2 (rootQuarters (numMag w (mag x) * 2 ^ unit w)))

-- 1/3, 1/0, 0/0, -1/inf, sqrt 2, sqrt of the least positive number
example : div (0x3f800000#32) 0x40400000#32 = 0x3eaaaaab#32 := by decide +kernel
example : div (0xbf800000#32) 0#32 = 0xff800000#32 := by decide +kernel
example : div (0#32) 0#32 = nan 32 := by decide +kernel
example : div (0xbf800000#32) 0x7f800000#32 = 0x80000000#32 := by decide +kernel
example : div (0x00000001#32) 0x40000000#32 = 0#32 := by decide +kernel
example : div (0x00000003#32) 0x40000000#32 = 2#32 := by decide +kernel
example : div (0x7f7fffff#32) 0x3f000000#32 = 0x7f800000#32 := by decide +kernel
example : sqrt (0x40000000#32) = 0x3fb504f3#32 := by decide +kernel
example : sqrt (0x41100000#32) = 0x40400000#32 := by decide +kernel
example : sqrt (1#32) = 0x1a3504f3#32 := by decide +kernel
example : sqrt (0x80000000#32) = 0x80000000#32 := by decide +kernel
example : sqrt (0xbf800000#32) = nan 32 := by decide +kernel

end Simdpp.Spec.Fp
