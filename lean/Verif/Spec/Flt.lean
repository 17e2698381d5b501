import Verif.Model.Vec

/-!
# IEEE 754 binary32/binary64 bit patterns and comparisons (specification)

A lane of width 32 is a binary32, of width 64 a binary64.
-/

namespace Simdpp.Spec.Flt

/-- The magnitude bits (everything but the sign). -/
def mag (x : BitVec w) : Nat := x.toNat % 2 ^ (w - 1)

/-- The bit pattern of `+∞`. -/
def infBits (w : Nat) : Nat := if w = 32 then 0x7f800000 else 0x7ff0000000000000

/-- NaN: exponent all ones, fraction nonzero. -/
def isNaN (x : BitVec w) : Bool := decide (infBits w < mag x)

/-- Position of a non-NaN on the number line: sign and magnitude as an integer. Both zeros
map to 0; the map is strictly increasing in the represented value. -/
def key (x : BitVec w) : Int := if x.msb then -(mag x : Int) else (mag x : Int)

/-- Neither operand is NaN. -/
def ordered (x y : BitVec w) : Bool := !isNaN x && !isNaN y

/-- `x == y` (IEEE, false on NaN). -/
def feq (x y : BitVec w) : Bool := ordered x y && decide (key x = key y)
/-- `x < y`. -/
def flt (x y : BitVec w) : Bool := ordered x y && decide (key x < key y)
/-- `x <= y`. -/
def fle (x y : BitVec w) : Bool := ordered x y && decide (key x ≤ key y)
/-- `x != y` (true on NaN). -/
def fne (x y : BitVec w) : Bool := !feq x y
/-- `x > y`. -/
def fgt (x y : BitVec w) : Bool := flt y x
/-- `x >= y`. -/
def fge (x y : BitVec w) : Bool := fle y x

end Simdpp.Spec.Flt
