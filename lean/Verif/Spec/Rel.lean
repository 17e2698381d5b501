import Verif.Spec.Flt

/-!
# The six relations (specification)

What a comparison of two lanes asks for. Nothing here refers to the code model.
-/

namespace Simdpp

variable {w : Nat}

namespace Spec
/-- The six relations a comparison can ask for. -/
inductive Rel | eq | ne | lt | le | gt | ge

/-- The relation on integers. -/
def Rel.onInt : Rel → Int → Int → Bool
  | .eq, x, y => decide (x = y)
  | .ne, x, y => decide (x ≠ y)
  | .lt, x, y => decide (x < y)
  | .le, x, y => decide (x ≤ y)
  | .gt, x, y => decide (x > y)
  | .ge, x, y => decide (x ≥ y)

/-- The IEEE relation on floating-point bit patterns: every relation but `ne` is false, `ne` is
true, if an operand is NaN. -/
def Rel.onFlt (R : Rel) (x y : BitVec w) : Bool :=
  if Flt.isNaN x || Flt.isNaN y then (match R with | .ne => true | _ => false)
  else R.onInt (Flt.key x) (Flt.key y)
end Spec

end Simdpp
