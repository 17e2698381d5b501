import Verif.Spec.Flt

/-!
# IEEE 754 values and round-to-nearest-even arithmetic (specification)

Every finite binary32 (binary64) number is an integer multiple of the least subnormal `2 ^ -149` (`2 ^ -1074`). `num x` is that
integer, so sums, comparisons and conversions are exact integer arithmetic and rounding is a function on natural numbers.

NaN payloads are not part of the specification: an operation that delivers a NaN delivers `nan w`.
-/

namespace Simdpp.Spec.Fp
open Flt

variable {w : Nat}

/-- Digits of the significand, the hidden one included. -/
def prec (w : Nat) : Nat := if w = 32 then 24 else 53

/-- `2 ^ -unit w` is the least positive number. -/
def unit (w : Nat) : Nat := if w = 32 then 149 else 1074

/-- The value of a magnitude pattern, in units of the least positive number: subnormal numbers are the fraction itself, the others
have a hidden digit and are scaled by the exponent. -/
def numMag (w M : Nat) : Nat :=
  let E := M / 2 ^ (prec w - 1)
  let f := M % 2 ^ (prec w - 1)
  if E = 0 then f else (2 ^ (prec w - 1) + f) * 2 ^ (E - 1)

/-- Neither NaN nor infinite. -/
def isFinite (x : BitVec w) : Bool := decide (mag x < infBits w)

/-- Infinite. -/
def isInf (x : BitVec w) : Bool := decide (mag x = infBits w)

/-- The value of a finite number, in units of the least positive number. -/
def num (x : BitVec w) : Int := if x.msb then -(numMag w (mag x) : Int) else numMag w (mag x)

/-- The number of binary digits. -/
def len (m : Nat) : Nat := if m = 0 then 0 else m.log2 + 1

/-- `m / 2 ^ q` to the nearest integer, ties to even. -/
def rne (m q : Nat) : Nat :=
  let d := m / 2 ^ q
  let t := m % 2 ^ q
  if 2 * t < 2 ^ q ∨ (2 * t = 2 ^ q ∧ d % 2 = 0) then d else d + 1

/-- The magnitude pattern nearest to `m / 2 ^ k` units, ties to even, infinity on overflow. -/
def rndMag (w k m : Nat) : Nat :=
  let q := max (len m - prec w) k
  min (infBits w) ((q - k) * 2 ^ (prec w - 1) + rne m q)

/-- A pattern from sign and magnitude. -/
def mk (w : Nat) (s : Bool) (M : Nat) : BitVec w := BitVec.ofNat w (M + if s then 2 ^ (w - 1) else 0)

/-- A NaN. -/
def nan (w : Nat) : BitVec w := BitVec.ofNat w (infBits w + 2 ^ (prec w - 2))

/-- The number nearest to `z / 2 ^ k` units; zero is positive. -/
def round (w k : Nat) (z : Int) : BitVec w := mk w (decide (z < 0)) (rndMag w k z.natAbs)

/-- `x + y`. -/
def add (x y : BitVec w) : BitVec w :=
  if isNaN x || isNaN y then nan w
  else if isInf x then (if isInf y && (x.msb != y.msb) then nan w else x)
  else if isInf y then y
  else if num x + num y = 0 then mk w (x.msb && y.msb) 0
  else round w 0 (num x + num y)

/-- `-x`: the sign bit flipped. -/
def neg (x : BitVec w) : BitVec w := x ^^^ BitVec.ofNat w (2 ^ (w - 1))

/-- `x - y`. -/
def sub (x y : BitVec w) : BitVec w := add x (neg y)

/-- The number nearest to an integer. -/
def ofInt (w : Nat) (z : Int) : BitVec w := round w 0 (z * 2 ^ unit w)

/-- The integer part of a finite number. -/
def truncInt (x : BitVec w) : Int := (num x).tdiv (2 ^ unit w)

/-- The greatest integer not above a finite number. -/
def floorInt (x : BitVec w) : Int := (num x) / (2 ^ unit w)

/-- The least integer not below a finite number. -/
def ceilInt (x : BitVec w) : Int := -(-(num x) / (2 ^ unit w))

/-- `float` to `double` and back: the nearest number of the other width. -/
def conv (v : Nat) (x : BitVec w) : BitVec v :=
  if isNaN x then nan v
  else if isInf x then mk v x.msb (infBits v)
  else if num x = 0 then mk v x.msb 0
  else if unit w ≤ unit v then round v 0 (num x * 2 ^ (unit v - unit w))
  else round v (unit w - unit v) (num x)

-- 1.0 + 1.0 = 2.0, 0.1f + 0.2f, 2^24 + 1 ties to even, 1.0 - 1.0 = +0, huge sums overflow
example : add (0x3f800000#32) 0x3f800000#32 = 0x40000000#32 := by decide +kernel
example : add (0x3dcccccd#32) 0x3e4ccccd#32 = 0x3e99999a#32 := by decide +kernel
example : add (0x4b800000#32) 0x3f800000#32 = 0x4b800000#32 := by decide +kernel
example : sub (0x3f800000#32) 0x3f800000#32 = 0#32 := by decide +kernel
example : add (0x7f7fffff#32) 0x7f7fffff#32 = 0x7f800000#32 := by decide +kernel
example : add (0x3fb999999999999a#64) 0x3fc999999999999a#64 = 0x3fd3333333333334#64 := by decide +kernel
example : ofInt 32 (-3) = 0xc0400000#32 := by decide +kernel
example : ofInt 32 16777219 = 0x4b800002#32 := by decide +kernel
example : truncInt (0xc0600000#32) = -3 := by decide +kernel
example : floorInt (0xc0600000#32) = -4 := by decide +kernel
example : ceilInt (0x40600000#32) = 4 := by decide +kernel
example : conv 64 (0xc0600000#32) = 0xc00c000000000000#64 := by decide +kernel
example : conv 32 (0x3fb999999999999a#64) = 0x3dcccccd#32 := by decide +kernel

end Simdpp.Spec.Fp
