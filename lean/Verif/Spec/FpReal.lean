import Verif.Spec.FpDiv
import Mathlib.Data.Real.Basic

/-!
# Specification: the real number a floating-point number stands for
-/

namespace Simdpp.Spec.Fp
variable {w : Nat}

/-- The value of a finite number. -/
noncomputable def real (x : BitVec w) : ℝ := (num x : ℝ) / 2 ^ unit w

end Simdpp.Spec.Fp
