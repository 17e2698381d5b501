import Verif.Spec.Prog
import Verif.Spec.FProg

/-!
# Programs over several element types (specification)

Expressions over vectors of one length and several element types: integer expressions (`Spec/Prog.lean`), floating-point expressions
(`Spec/FProg.lean`), conversions between the element types and bit casts between element types of one size; and what such an expression means
for one lane. Nothing here refers to the code model.
-/

namespace Simdpp.Spec

namespace MProg
open Prog FProg

/-- The sizes of integer and floating-point elements. -/
inductive IW | b8 | b16 | b32 | b64
deriving DecidableEq
inductive FWd | f32 | f64
deriving DecidableEq

/-- Bits. -/
def IW.n : IW → Nat | .b8 => 8 | .b16 => 16 | .b32 => 32 | .b64 => 64
def FWd.n : FWd → Nat | .f32 => 32 | .f64 => 64

/-- The element types: `int8`, .., `uint64` (`s`: signed), `float`, `double`. -/
inductive ETy | int (s : Bool) (u : IW) | flt (f : FWd)
deriving DecidableEq

/-- Bits of an element. -/
abbrev ETy.w : ETy → Nat | .int _ u => u.n | .flt f => f.n

/-- Expressions. `Γ x` is the element type of the variable `x`. -/
inductive MExp (Γ : Nat → ETy) : ETy → Type
  /-- a variable -/
  | var (x : Nat) : MExp Γ (Γ x)
  /-- an integer expression `e` with `V` variables, for which the expressions `arg` are substituted -/
  | ints {s : Bool} {u : IW} (V : Nat) (sg : Nat → Bool) (e : Exp sg (.vec s)) (arg : (x : Fin V) → MExp Γ (.int (sg x.val) u)) : MExp Γ (.int s u)
  /-- a floating-point expression likewise -/
  | flts {f : FWd} (V : Nat) (e : FExp f.n .vec) (arg : Fin V → MExp Γ (.flt f)) : MExp Γ (.flt f)
  /-- `to_int8(a)`, .., `to_uint64(a)`, `to_float32(a)`, `to_float64(a)` -/
  | conv {t : ETy} (t' : ETy) (a : MExp Γ t) : MExp Γ t'
  /-- `bit_cast` to a type with elements of the same size -/
  | bits {t : ETy} (t' : ETy) (hw : t.w = t'.w) (a : MExp Γ t) : MExp Γ t'

/-- Conversion of one element: of an integer to an integer modulo `2 ^ w`, of an integer to floating point and from `double` to `float` to
the nearest number (ties to even), of floating point to an integer without the fraction. -/
def convLane : (t t' : ETy) → BitVec t.w → BitVec t'.w
  | .int s _, .int _ v, x => Spec.lane v.n (val s x)
  | .int s _, .flt f, x => Fp.ofInt f.n (val s x)
  | .flt _, .int _ v, x => Spec.lane v.n (Fp.truncInt x)
  | .flt .f32, .flt .f32, x => x
  | .flt .f64, .flt .f64, x => x
  | .flt .f32, .flt .f64, x => Fp.conv 64 (w := 32) x
  | .flt .f64, .flt .f32, x => Fp.conv 32 (w := 64) x

/-- The scalar computation: `ρ x` is the lane of the variable `x`, `I` what the build chooses for floating point (`Spec/FProg.lean`). -/
def MExp.den {Γ : Nat → ETy} (I : (f : FWd) → Impl f.n) (ρ : (x : Nat) → BitVec (Γ x).w) : {t : ETy} → MExp Γ t → BitVec t.w
  | _, .var x => ρ x
  | _, .ints (u := u) V _ e arg => e.den (w := u.n) fun x => if h : x < V then (arg ⟨x, h⟩).den I ρ else 0
  | _, .flts (f := f) V e arg => e.den (I f) fun x => if h : x < V then (arg ⟨x, h⟩).den I ρ else 0
  | _, .conv (t := t) t' a => convLane t t' (a.den I ρ)
  | _, .bits _ hw a => (a.den I ρ).cast hw

/-- No `min` and no `max` of floating-point numbers in the expression. -/
def MExp.noMinMax {Γ : Nat → ETy} : {t : ETy} → MExp Γ t → Prop
  | _, .var _ => True
  | _, .ints _ _ _ arg => ∀ x, (arg x).noMinMax
  | _, .flts _ e arg => e.noMinMax = true ∧ ∀ x, (arg x).noMinMax
  | _, .conv _ a => a.noMinMax
  | _, .bits _ _ a => a.noMinMax

end MProg
end Simdpp.Spec
