import Verif.Model.Vec

/-!
# Specification of integer lanes

Nothing here refers to the code model. A lane is a `w`-bit pattern; `val`
is the integer it denotes for a signed (`s = true`) or unsigned element type.
-/

namespace Simdpp.Spec

/-- Supported lane widths. -/
def IsW (w : Nat) : Prop := w = 8 ∨ w = 16 ∨ w = 32 ∨ w = 64

/-- The integer a lane denotes: two's complement if `s`, plain binary otherwise. -/
def val (s : Bool) (x : BitVec w) : Int := if s then x.toInt else (x.toNat : Int)

/-- Least value of the element type. -/
def lo (s : Bool) (w : Nat) : Int := if s then -(2 ^ (w - 1)) else 0
/-- Greatest value of the element type. -/
def hi (s : Bool) (w : Nat) : Int := if s then 2 ^ (w - 1) - 1 else 2 ^ w - 1

/-- Clamp an integer to the range of the element type. -/
def clamp (s : Bool) (w : Nat) (z : Int) : Int :=
  if z < lo s w then lo s w else if hi s w < z then hi s w else z

/-- The lane holding `z` modulo `2^w`. -/
def lane (w : Nat) (z : Int) : BitVec w := BitVec.ofInt w z

/-- Mask lane: all bits set or all clear. -/
def maskLane (w : Nat) (p : Bool) : BitVec w := if p then BitVec.allOnes w else 0

/-- Number of set bits. -/
def popcount (x : BitVec w) : Nat := ((List.range w).filter (fun k => x.getLsbD k)).length

theorem val_lane_of_range {s : Bool} {w : Nat} (hw : 0 < w) {z : Int}
    (h1 : lo s w ≤ z) (h2 : z ≤ hi s w) : val s (lane w z) = z := by
  have hp : (2:Int) ^ w = 2 * 2 ^ (w - 1) := by
    rw [← Int.pow_succ', Nat.sub_add_cancel hw]
  cases s
  · simp only [val, lane, lo, hi, Bool.false_eq_true, if_false] at *
    rw [BitVec.toNat_ofInt]
    rw [Int.emod_eq_of_lt h1 (by push_cast; omega)]
    omega
  · simp only [val, lane, lo, hi, if_true] at *
    rw [BitVec.toInt_ofInt, Int.bmod_eq_of_le]
    · push_cast; rw [hp]; omega
    · push_cast; rw [hp]; omega

theorem lane_val (s : Bool) (x : BitVec w) : lane w (val s x) = x := by
  cases s <;> simp [lane, val]

theorem val_inj (s : Bool) {x y : BitVec w} : val s x = val s y ↔ x = y := by
  constructor
  · intro h; rw [← lane_val s x, h, lane_val]
  · rintro rfl; rfl

end Simdpp.Spec
