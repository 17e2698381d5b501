import Verif.Spec.FpReal

/-!
# Specification: accuracy and range of the floating-point formats

`2 ^ -24` and `2 ^ -53` bound the relative error of one rounding of a `float` or `double`; it applies to results whose magnitude lies between
the least normal number and half of the greatest finite number.
-/

namespace Simdpp.Spec.Fp

/-- The relative error of one rounding. -/
noncomputable def eps (w : Nat) : ℝ := 1 / 2 ^ prec w

/-- `2 ^ 127`, `2 ^ 1023`: smaller magnitudes are rounded to finite numbers. -/
noncomputable def huge (w : Nat) : ℝ := 2 ^ (if w = 32 then 127 else 1023)

/-- The least normal number, `2 ^ -126`, `2 ^ -1022`. -/
noncomputable def tiny (w : Nat) : ℝ := 1 / 2 ^ (if w = 32 then 126 else 1022)

end Simdpp.Spec.Fp
