import Verif.Spec.Rel
import Verif.Spec.Int

/-!
# Lane-wise programs (specification)

The expressions a user writes with integer vectors of one element size and masks of that size, and what such an expression means for one lane:
the scalar computation with the same operators, every intermediate result reduced to the element type. Nothing here refers to the code model.
-/

namespace Simdpp.Spec

namespace Prog

/-- The type of an expression: a vector of signed (`int8<N>` and so on) or unsigned elements, or a mask. -/
inductive Ty | vec (s : Bool) | mask

/-- The binary operators whose operands may differ in signedness; the result is signed if both operands are. -/
inductive Op2 | add | sub | mul | and | or | xor | andnot

/-- The binary functions whose operands have one type, which is also that of the result. -/
inductive Fn2 | min | max | addSat | subSat | avg | avgTrunc | mulHi

/-- The operators between masks. -/
inductive OpM | and | or | xor | andnot

/-- Expressions. `sg x` is the signedness of the variable `x`. -/
inductive Exp (sg : Nat → Bool) : Ty → Type
  /-- a variable -/
  | var (x : Nat) : Exp sg (.vec (sg x))
  /-- a scalar operand of a signed or unsigned type of up to 64 bits -/
  | lit (s : Bool) (v : BitVec 64) : Exp sg (.vec s)
  /-- `a + b`, `a - b`, `a * b` (`mul_lo`), `a & b`, `a | b`, `a ^ b`, `bit_andnot(a, b)` -/
  | op2 {s t : Bool} (o : Op2) (a : Exp sg (.vec s)) (b : Exp sg (.vec t)) : Exp sg (.vec (s && t))
  /-- `min(a, b)`, `max(a, b)`, `add_sat`, `sub_sat`, `avg`, `avg_trunc`, `mul_hi` -/
  | fn2 {s : Bool} (f : Fn2) (a b : Exp sg (.vec s)) : Exp sg (.vec s)
  /-- `~a` -/
  | not {s : Bool} (a : Exp sg (.vec s)) : Exp sg (.vec s)
  /-- `neg(a)` -/
  | neg (a : Exp sg (.vec true)) : Exp sg (.vec true)
  /-- `abs(a)` -/
  | abs (a : Exp sg (.vec true)) : Exp sg (.vec false)
  /-- `a << k` -/
  | shl {s : Bool} (a : Exp sg (.vec s)) (k : Nat) : Exp sg (.vec s)
  /-- `a >> k` -/
  | shr {s : Bool} (a : Exp sg (.vec s)) (k : Nat) : Exp sg (.vec s)
  /-- conversion to the vector type of the other signedness -/
  | cast {s : Bool} (t : Bool) (a : Exp sg (.vec s)) : Exp sg (.vec t)
  /-- `a == b`, `a != b`, `a < b`, `a <= b`, `a > b`, `a >= b` -/
  | cmp {s : Bool} (R : Rel) (a b : Exp sg (.vec s)) : Exp sg .mask
  /-- `m & n`, `m | n`, `m ^ n`, `bit_andnot(m, n)` -/
  | opm (o : OpM) (m n : Exp sg .mask) : Exp sg .mask
  /-- `~m` -/
  | notm (m : Exp sg .mask) : Exp sg .mask
  /-- `a & m` -/
  | andm {s : Bool} (a : Exp sg (.vec s)) (m : Exp sg .mask) : Exp sg (.vec s)
  /-- `bit_andnot(a, m)` -/
  | andnotm {s : Bool} (a : Exp sg (.vec s)) (m : Exp sg .mask) : Exp sg (.vec s)
  /-- `blend(a, b, m)` -/
  | blend {s t : Bool} (a : Exp sg (.vec s)) (b : Exp sg (.vec t)) (m : Exp sg .mask) : Exp sg (.vec (s && t))

/-- What one lane of an expression holds. -/
abbrev Ty.Lane (w : Nat) : Ty → Type
  | .vec _ => BitVec w
  | .mask => Bool

/-- The operators on one lane: integer arithmetic modulo `2 ^ w`, or bitwise. -/
def Op2.lane (w : Nat) (s t : Bool) (x y : BitVec w) : Op2 → BitVec w
  | .add => Spec.lane w (val s x + val t y)
  | .sub => Spec.lane w (val s x - val t y)
  | .mul => Spec.lane w (val s x * val t y)
  | .and => x &&& y
  | .or => x ||| y
  | .xor => x ^^^ y
  | .andnot => x &&& ~~~ y

/-- The functions on one lane. -/
def Fn2.lane (w : Nat) (s : Bool) (x y : BitVec w) : Fn2 → BitVec w
  | .min => Spec.lane w (Min.min (val s x) (val s y))
  | .max => Spec.lane w (Max.max (val s x) (val s y))
  | .addSat => Spec.lane w (clamp s w (val s x + val s y))
  | .subSat => Spec.lane w (clamp s w (val s x - val s y))
  | .avg => Spec.lane w ((val s x + val s y + 1) / 2)
  | .avgTrunc => Spec.lane w ((val s x + val s y) / 2)
  | .mulHi => Spec.lane w (val s x * val s y / 2 ^ w)

/-- The mask operators on one lane. -/
def OpM.lane (p q : Bool) : OpM → Bool
  | .and => p && q
  | .or => p || q
  | .xor => p ^^ q
  | .andnot => p && !q

/-- Complement, selection: on lanes. -/
def notL {w : Nat} (x : BitVec w) : BitVec w := ~~~ x
def selL {w : Nat} (p : Bool) (x y : BitVec w) : BitVec w := if p then x else y

/-- The scalar computation: `env x` is the lane of the variable `x`. -/
def Exp.den {sg : Nat → Bool} {w : Nat} (env : Nat → BitVec w) : {t : Ty} → Exp sg t → t.Lane w
  | _, .var x => env x
  | _, .lit s v => Spec.lane w (val s v)
  | _, .op2 (s := s) (t := t) o a b => o.lane w s t (a.den env) (b.den env)
  | _, .fn2 (s := s) f a b => f.lane w s (a.den env) (b.den env)
  | _, .not a => notL (a.den env)
  | _, .neg a => Spec.lane w (-val (w := w) true (a.den env))
  | _, .abs a => Spec.lane w |val (w := w) true (a.den env)|
  | _, .shl (s := s) a k => Spec.lane w (val (w := w) s (a.den env) * 2 ^ k)
  | _, .shr (s := s) a k => Spec.lane w (val (w := w) s (a.den env) / 2 ^ k)
  | _, .cast _ a => a.den env
  | _, .cmp (s := s) R a b => R.onInt (val (w := w) s (a.den env)) (val (w := w) s (b.den env))
  | _, .opm o m n => o.lane (m.den env) (n.den env)
  | _, .notm m => Bool.not (m.den env)
  | _, .andm a m => selL (m.den env) (a.den env) 0#w
  | _, .andnotm a m => selL (m.den env) 0#w (a.den env)
  | _, .blend a b m => selL (m.den env) (a.den env) (b.den env)

end Prog
end Simdpp.Spec
