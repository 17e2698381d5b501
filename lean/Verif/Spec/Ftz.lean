import Verif.Spec.FProg
import Verif.Spec.FpRange

/-!
# Arithmetic that flushes to zero (specification)

The arithmetic of the 32-bit NEON unit ("standard FPSCR value" of the ARM architecture: flush-to-zero, default NaN, round to nearest): a
subnormal operand counts as a zero of its sign, and a result whose exact value lies below the normal range (before rounding) is a zero of its
sign. Nothing here refers to the code model.
-/

namespace Simdpp.Spec.Ftz
open Flt Fp FProg

variable {w : Nat}

/-- Below the normal range and not zero. -/
def Subnormal (x : BitVec w) : Prop := 0 < mag x ∧ mag x < 2 ^ (prec w - 1)

instance (x : BitVec w) : Decidable (Subnormal x) := inferInstanceAs (Decidable (_ ∧ _))

/-- A subnormal number is replaced by a zero of its sign. -/
def flush (x : BitVec w) : BitVec w := if Subnormal x then mk w x.msb 0 else x

/-- `x + y`. A sum below the normal range is exact, so it is tiny before rounding just when the rounded sum is subnormal. -/
def add (x y : BitVec w) : BitVec w := flush (Fp.add (flush x) (flush y))

/-- `x - y`. -/
def sub (x y : BitVec w) : BitVec w := flush (Fp.sub (flush x) (flush y))

/-- `x * y`: a zero of the sign of the product if the exact product of two finite operands lies below the normal range. -/
def mul (x y : BitVec w) : BitVec w :=
  if isFinite x ∧ isFinite y ∧ (num (flush x) * num (flush y)).natAbs < 2 ^ (prec w - 1 + unit w) then mk w (x.msb != y.msb) 0
  else Fp.mul (flush x) (flush y)

/-- The lesser number; the negative of two zeros; NaN if an operand is NaN. -/
def lesser (x y : BitVec w) : BitVec w :=
  if isNaN x || isNaN y then nan w else if flt x y then x else if flt y x then y else if x.msb then x else y

/-- The greater number; the positive of two zeros; NaN if an operand is NaN. -/
def greater (x y : BitVec w) : BitVec w :=
  if isNaN x || isNaN y then nan w else if flt y x then x else if flt x y then y else if x.msb then y else x

/-- What the NEON unit chooses where IEEE 754 leaves a choice. -/
def neonImpl : Impl w := ⟨Fp.mul, lesser, greater⟩

/-- A comparison; `eqz`: `==` and `!=` are done by the vector unit, not by scalar code which keeps subnormal numbers. -/
def rel (eqz : Bool) (R : Rel) (x y : BitVec w) : Bool :=
  match R, eqz with
  | .eq, false => Rel.onFlt .eq x y
  | .ne, false => Rel.onFlt .ne x y
  | R, _ => R.onFlt (flush x) (flush y)

/-- The binary operations on one lane: arithmetic, `min` and `max` flush; bit operations do not. Division is not an operation of this unit. -/
def lane2 (x y : BitVec w) : FOp2 → BitVec w
  | .add => add x y
  | .sub => sub x y
  | .mul => mul x y
  | .min => lesser (flush x) (flush y)
  | .max => greater (flush x) (flush y)
  | o => o.lane neonImpl x y

/-- The scalar computation of an expression. -/
def den (eqz : Bool) (env : Nat → BitVec w) : {t : FTy} → FExp w t → t.Lane w
  | _, .var x => env x
  | _, .lit v => v
  | _, .op1 o a => o.lane (w := w) (den eqz env a)
  | _, .op2 o a b => lane2 (w := w) (den eqz env a) (den eqz env b) o
  | _, .fmadd a b c => Fp.fma (w := w) (den eqz env a) (den eqz env b) (den eqz env c)
  | _, .fmsub a b c => Fp.fma (w := w) (den eqz env a) (den eqz env b) (Fp.neg (w := w) (den eqz env c))
  | _, .cmp R a b => rel (w := w) eqz R (den eqz env a) (den eqz env b)
  | _, .isnan a => isNaN (w := w) (den eqz env a)
  | _, .isfinite a => isFinite (w := w) (den eqz env a)
  | _, .opm o m n => o.lane (den eqz env m) (den eqz env n)
  | _, .notm m => Bool.not (den eqz env m)
  | _, .andm a m => sel (den eqz env m) (den eqz env a) 0#w
  | _, .andnotm a m => sel (den eqz env m) 0#w (den eqz env a)
  | _, .blend a b m => sel (den eqz env m) (den eqz env a) (den eqz env b)

/-- The operation exists on the 32-bit NEON unit (division and square root are computed from estimates, there is no fused product). -/
def FOp2Ok : FOp2 → Bool
  | .div => false
  | _ => true

def FOp1Ok : FOp1 → Bool
  | .sqrt => false
  | _ => true

/-- Every operation of the expression does. -/
def Ok : {t : FTy} → FExp w t → Bool
  | _, .var _ => true
  | _, .lit _ => true
  | _, .op1 o a => FOp1Ok o && Ok a
  | _, .op2 o a b => FOp2Ok o && Ok a && Ok b
  | _, .fmadd _ _ _ => false
  | _, .fmsub _ _ _ => false
  | _, .cmp _ a b => Ok a && Ok b
  | _, .isnan a => Ok a
  | _, .isfinite a => Ok a
  | _, .opm _ m n => Ok m && Ok n
  | _, .notm m => Ok m
  | _, .andm a m => Ok a && Ok m
  | _, .andnotm a m => Ok a && Ok m
  | _, .blend a b m => Ok a && Ok b && Ok m

/-- The IEEE result of a binary operation shows nothing of the subnormal range: operands and result are zero, normal, infinite or NaN, and a
product is not the least normal number either (its exact value may lie below). -/
def Clear2 (x y r : BitVec w) : FOp2 → Prop
  | .add => ¬ Subnormal x ∧ ¬ Subnormal y ∧ ¬ Subnormal r
  | .sub => ¬ Subnormal x ∧ ¬ Subnormal y ∧ ¬ Subnormal r
  | .mul => ¬ Subnormal x ∧ ¬ Subnormal y ∧ ¬ Subnormal r ∧ mag r ≠ 2 ^ (prec w - 1)
  | .min => ¬ Subnormal x ∧ ¬ Subnormal y
  | .max => ¬ Subnormal x ∧ ¬ Subnormal y
  | _ => True

/-- The IEEE computation of the expression meets no subnormal number in arithmetic or comparisons. -/
def NoTiny (I : Impl w) (env : Nat → BitVec w) : {t : FTy} → FExp w t → Prop
  | _, .var _ => True
  | _, .lit _ => True
  | _, .op1 _ a => NoTiny I env a
  | _, .op2 o a b => NoTiny I env a ∧ NoTiny I env b ∧ Clear2 (a.den I env) (b.den I env) (o.lane I (a.den I env) (b.den I env)) o
  | _, .fmadd a b c => NoTiny I env a ∧ NoTiny I env b ∧ NoTiny I env c
  | _, .fmsub a b c => NoTiny I env a ∧ NoTiny I env b ∧ NoTiny I env c
  | _, .cmp _ a b => NoTiny I env a ∧ NoTiny I env b ∧ ¬ Subnormal (w := w) (a.den I env) ∧ ¬ Subnormal (w := w) (b.den I env)
  | _, .isnan a => NoTiny I env a
  | _, .isfinite a => NoTiny I env a
  | _, .opm _ m n => NoTiny I env m ∧ NoTiny I env n
  | _, .notm m => NoTiny I env m
  | _, .andm a m => NoTiny I env a ∧ NoTiny I env m
  | _, .andnotm a m => NoTiny I env a ∧ NoTiny I env m
  | _, .blend a b m => NoTiny I env a ∧ NoTiny I env b ∧ NoTiny I env m

-- the least positive number counts as zero; `2^-126 - 1.5 * 2^-126` is `-0`; `2^-100 * 2^-100` is `+0`; 1.5 * 2^-126 is kept
example : flush 0x80000001#32 = 0x80000000#32 ∧ flush 0x00800000#32 = 0x00800000#32 := by decide +kernel
example : sub 0x00800000#32 0x00c00000#32 = 0x80000000#32 := by decide +kernel
example : mul 0x0d800000#32 0x0d800000#32 = 0#32 ∧ mul 0x00800000#32 0x3fc00000#32 = 0x00c00000#32 := by decide +kernel
-- the product (1 - 2^-24) * 2^-126 rounds to the least normal number, but is tiny before rounding
example : Fp.mul 0x00800000#32 0x3f7fffff#32 = 0x00800000#32 ∧ mul 0x00800000#32 0x3f7fffff#32 = 0#32 := by decide +kernel

end Simdpp.Spec.Ftz
