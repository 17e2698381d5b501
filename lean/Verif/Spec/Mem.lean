import Verif.Spec.Int

/-!
# Values in memory
-/

namespace Simdpp.Spec

variable {w : Nat}

/-- The `j`-th byte of a value, counted from the least significant one. -/
def byteOf (x : BitVec w) (j : Nat) : BitVec 8 := x.extractLsb' (8 * j) 8

/-- The bytes from address `a` on hold the value `x` (little-endian). -/
def Holds (byte : Nat → BitVec 8) (a : Nat) (x : BitVec w) : Prop := ∀ j, j < w / 8 → byte (a + j) = byteOf x j

/-- Address `x` belongs to element `i` of an array of `w`-bit elements at `p`. -/
def InElem (w p i x : Nat) : Prop := p + i * (w / 8) ≤ x ∧ x < p + (i + 1) * (w / 8)

end Simdpp.Spec
