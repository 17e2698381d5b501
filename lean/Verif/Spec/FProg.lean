import Verif.Spec.Rel
import Verif.Spec.FpMul
import Verif.Spec.FpDiv

/-!
# Lane-wise floating-point programs (specification)

The expressions a user writes with `float32<N>` or `float64<N>` vectors and their masks, and what such an expression means for one lane: the
scalar computation with the IEEE 754 operations. Nothing here refers to the code model.
-/

namespace Simdpp.Spec

namespace FProg
open Flt Fp

/-- The type of an expression: a vector or a mask. -/
inductive FTy | vec | mask

/-- The binary operations. -/
inductive FOp2 | add | sub | mul | div | min | max | copysign | and | or | xor | andnot

/-- The unary operations. -/
inductive FOp1 | neg | abs | sqrt | not

/-- The operators between masks. -/
inductive FOpM | and | or | xor | andnot

/-- Expressions over elements of `w` bits. -/
inductive FExp (w : Nat) : FTy → Type
  /-- a variable -/
  | var (x : Nat) : FExp w .vec
  /-- a scalar of the element type -/
  | lit (v : BitVec w) : FExp w .vec
  /-- `-a`, `abs(a)`, `sqrt(a)`, `~a` -/
  | op1 (o : FOp1) (a : FExp w .vec) : FExp w .vec
  /-- `a + b`, `a - b`, `a * b`, `a / b`, `min(a, b)`, `max(a, b)`, `copysign(a, b)`, `a & b`, `a | b`, `a ^ b`, `bit_andnot(a, b)` -/
  | op2 (o : FOp2) (a b : FExp w .vec) : FExp w .vec
  /-- `fmadd(a, b, c)` -/
  | fmadd (a b c : FExp w .vec) : FExp w .vec
  /-- `fmsub(a, b, c)` -/
  | fmsub (a b c : FExp w .vec) : FExp w .vec
  /-- `a == b`, `a != b`, `a < b`, `a <= b`, `a > b`, `a >= b` -/
  | cmp (R : Rel) (a b : FExp w .vec) : FExp w .mask
  /-- `isnan(a)` -/
  | isnan (a : FExp w .vec) : FExp w .mask
  /-- `isfinite(a)` -/
  | isfinite (a : FExp w .vec) : FExp w .mask
  /-- `m & n`, `m | n`, `m ^ n`, `bit_andnot(m, n)` -/
  | opm (o : FOpM) (m n : FExp w .mask) : FExp w .mask
  /-- `~m` -/
  | notm (m : FExp w .mask) : FExp w .mask
  /-- `a & m` -/
  | andm (a : FExp w .vec) (m : FExp w .mask) : FExp w .vec
  /-- `bit_andnot(a, m)` -/
  | andnotm (a : FExp w .vec) (m : FExp w .mask) : FExp w .vec
  /-- `blend(a, b, m)` -/
  | blend (a b : FExp w .vec) (m : FExp w .mask) : FExp w .vec

/-- What one lane of an expression holds. -/
abbrev FTy.Lane (w : Nat) : FTy → Type
  | .vec => BitVec w
  | .mask => Bool

variable {w : Nat}

/-- What IEEE 754 and the documentation leave to the build: the sign of a zero product, and `min`, `max` of equal zeros and of NaN. -/
structure Impl (w : Nat) where
  mul : BitVec w → BitVec w → BitVec w
  min : BitVec w → BitVec w → BitVec w
  max : BitVec w → BitVec w → BitVec w

/-- The product is the IEEE product but for the sign of zero; `min` and `max` of two numbers is an operand that is not above (below) the other;
if an operand is NaN it is an operand or NaN. -/
structure Impl.Ok (I : Impl w) : Prop where
  mul : ∀ x y, SameUpToZero (I.mul x y) (Fp.mul x y)
  min : ∀ x y, ordered x y → (I.min x y = x ∨ I.min x y = y) ∧ fle (I.min x y) x ∧ fle (I.min x y) y
  max : ∀ x y, ordered x y → (I.max x y = x ∨ I.max x y = y) ∧ fge (I.max x y) x ∧ fge (I.max x y) y
  minNaN : ∀ x y, ¬ ordered x y → I.min x y = x ∨ I.min x y = y ∨ isNaN (I.min x y)
  maxNaN : ∀ x y, ¬ ordered x y → I.max x y = x ∨ I.max x y = y ∨ isNaN (I.max x y)

/-- The unary operations on one lane. -/
def FOp1.lane (x : BitVec w) : FOp1 → BitVec w
  | .neg => Fp.mk w (!x.msb) (mag x)
  | .abs => Fp.mk w false (mag x)
  | .sqrt => Fp.sqrt x
  | .not => ~~~ x

/-- The binary operations on one lane. -/
def FOp2.lane (I : Impl w) (x y : BitVec w) : FOp2 → BitVec w
  | .add => Fp.add x y
  | .sub => Fp.sub x y
  | .mul => I.mul x y
  | .div => Fp.div x y
  | .min => I.min x y
  | .max => I.max x y
  | .copysign => Fp.mk w y.msb (mag x)
  | .and => x &&& y
  | .or => x ||| y
  | .xor => x ^^^ y
  | .andnot => x &&& ~~~ y

/-- The mask operators on one lane. -/
def FOpM.lane (p q : Bool) : FOpM → Bool
  | .and => p && q
  | .or => p || q
  | .xor => p ^^ q
  | .andnot => p && !q

/-- Selection on lanes. -/
def sel (p : Bool) (x y : BitVec w) : BitVec w := if p then x else y

/-- The scalar computation: `env x` is the lane of the variable `x`. -/
def FExp.den (I : Impl w) (env : Nat → BitVec w) : {t : FTy} → FExp w t → t.Lane w
  | _, .var x => env x
  | _, .lit v => v
  | _, .op1 o a => o.lane (w := w) (a.den I env)
  | _, .op2 o a b => o.lane I (a.den I env) (b.den I env)
  | _, .fmadd a b c => Fp.fma (w := w) (a.den I env) (b.den I env) (c.den I env)
  | _, .fmsub a b c => Fp.fma (w := w) (a.den I env) (b.den I env) (Fp.neg (w := w) (c.den I env))
  | _, .cmp R a b => R.onFlt (w := w) (a.den I env) (b.den I env)
  | _, .isnan a => isNaN (w := w) (a.den I env)
  | _, .isfinite a => isFinite (w := w) (a.den I env)
  | _, .opm o m n => o.lane (m.den I env) (n.den I env)
  | _, .notm m => Bool.not (m.den I env)
  | _, .andm a m => sel (m.den I env) (a.den I env) 0#w
  | _, .andnotm a m => sel (m.den I env) 0#w (a.den I env)
  | _, .blend a b m => sel (m.den I env) (a.den I env) (b.den I env)

/-- No `min` and no `max` in the expression. -/
def FExp.noMinMax : {t : FTy} → FExp w t → Bool
  | _, .var _ => true
  | _, .lit _ => true
  | _, .op1 _ a => a.noMinMax
  | _, .op2 o a b => (match o with | .min => false | .max => false | _ => true) && a.noMinMax && b.noMinMax
  | _, .fmadd a b c => a.noMinMax && b.noMinMax && c.noMinMax
  | _, .fmsub a b c => a.noMinMax && b.noMinMax && c.noMinMax
  | _, .cmp _ a b => a.noMinMax && b.noMinMax
  | _, .isnan a => a.noMinMax
  | _, .isfinite a => a.noMinMax
  | _, .opm _ m n => m.noMinMax && n.noMinMax
  | _, .notm m => m.noMinMax
  | _, .andm a m => a.noMinMax && m.noMinMax
  | _, .andnotm a m => a.noMinMax && m.noMinMax
  | _, .blend a b m => a.noMinMax && b.noMinMax && m.noMinMax

/-- The IEEE product, and one choice for `min` and `max` (`a < b ? a : b`, `a > b ? a : b`). -/
def ieee : Impl w := ⟨Fp.mul, fun x y => if flt x y then x else y, fun x y => if fgt x y then x else y⟩

end FProg
end Simdpp.Spec
