import Verif.Spec.MProg

/-!
# Programs with shuffles (specification)

Expressions which also move elements between the lanes of a 128-bit block. What such an expression means does not refer to registers: a vector is a
function from lane numbers to elements, and a shuffle takes every element from a given place of the same block. Nothing here refers to the code
model.
-/

namespace Simdpp.Spec
namespace MProg
open Prog FProg

/-- The shuffles. -/
inductive Shuf
  /-- `permute2<s0,s1>(a)` -/
  | permute2 (s0 s1 : Nat)
  /-- `permute4<s0,s1,s2,s3>(a)` (16- and 32-bit elements) -/
  | permute4 (s0 s1 s2 s3 : Nat)
  /-- `splat16<s>(a)`, `splat8<s>(a)`, `splat4<s>(a)`, `splat2<s>(a)` -/
  | splat (s : Nat)
  /-- `move16_l<s>(a)`, .., `move2_l<s>(a)` -/
  | move_l (s : Nat)
  /-- `move16_r<s>(a)`, .., `move2_r<s>(a)` -/
  | move_r (s : Nat)
  /-- `align16<s>(a, b)`, .., `align2<s>(a, b)` -/
  | align (s : Nat)
  /-- `zip16_lo(a, b)`, .., `zip2_lo(a, b)` -/
  | zip_lo
  /-- `zip16_hi(a, b)`, .., `zip2_hi(a, b)` -/
  | zip_hi
  /-- `unzip16_lo(a, b)`, .., `unzip2_lo(a, b)` -/
  | unzip_lo
  /-- `unzip16_hi(a, b)`, .., `unzip2_hi(a, b)` -/
  | unzip_hi
  /-- `shuffle1<s0,s1>(a, b)` (64-bit elements) -/
  | shuffle1 (s0 s1 : Nat)
  /-- `shuffle2<sa0,sa1,sb0,sb1>(a, b)` (32-bit elements) -/
  | shuffle2 (sa0 sa1 sb0 sb1 : Nat)
  /-- `shuffle4x2<s0,s1,s2,s3>(a, b)` (32-bit elements) -/
  | shuffle4x2 (s0 s1 s2 s3 : Nat)

/-- The one of four numbers. -/
def four (s0 s1 s2 s3 j : Nat) : Nat := if j = 0 then s0 else if j = 1 then s1 else if j = 2 then s2 else s3

/-- Element `j` of the result, for elements of `w` bits (`128 / w` in a block). Functions of one argument ignore `b`. -/
def Shuf.pick {w : Nat} (s : Shuf) (a b : Nat → BitVec w) (j : Nat) : BitVec w :=
  let L := 128 / w
  match s with
  | .permute2 s0 s1 => a (j / 2 * 2 + if j % 2 = 0 then s0 else s1)
  | .permute4 s0 s1 s2 s3 => a (j / 4 * 4 + four s0 s1 s2 s3 (j % 4))
  | .splat s => a (j / L * L + s)
  | .move_l s => if j % L + s < L then a (j + s) else 0
  | .move_r s => if s ≤ j % L then a (j - s) else 0
  | .align s => if j % L + s < L then a (j + s) else b (j + s - L)
  | .zip_lo => (if j % 2 = 0 then a else b) (j / L * L + j % L / 2)
  | .zip_hi => (if j % 2 = 0 then a else b) (j / L * L + L / 2 + j % L / 2)
  | .unzip_lo => if j % L < L / 2 then a (j / L * L + 2 * (j % L)) else b (j / L * L + 2 * (j % L - L / 2))
  | .unzip_hi => if j % L < L / 2 then a (j / L * L + 2 * (j % L) + 1) else b (j / L * L + 2 * (j % L - L / 2) + 1)
  | .shuffle1 s0 s1 => if j % 2 = 0 then a (j / 2 * 2 + s0) else b (j / 2 * 2 + s1)
  | .shuffle2 sa0 sa1 sb0 sb1 => (if j % 4 < 2 then a else b) (j / 4 * 4 + four sa0 sa1 sb0 sb1 (j % 4))
  | .shuffle4x2 s0 s1 s2 s3 =>
    if four s0 s1 s2 s3 (j % 4) < 4 then a (j / 4 * 4 + four s0 s1 s2 s3 (j % 4)) else b (j / 4 * 4 + (four s0 s1 s2 s3 (j % 4) - 4))

/-- The selectors and amounts the functions accept, and the element sizes they exist for. -/
def Shuf.Valid (w : Nat) : Shuf → Prop
  | .permute2 s0 s1 => w ≠ 8 ∧ s0 < 2 ∧ s1 < 2
  | .permute4 s0 s1 s2 s3 => (w = 16 ∨ w = 32) ∧ s0 < 4 ∧ s1 < 4 ∧ s2 < 4 ∧ s3 < 4
  | .splat s => s < 128 / w
  | .move_l s => s ≤ 128 / w
  | .move_r s => s ≤ 128 / w
  | .align s => s ≤ 128 / w
  | .zip_lo => True
  | .zip_hi => True
  | .unzip_lo => True
  | .unzip_hi => True
  | .shuffle1 s0 s1 => w = 64 ∧ s0 < 2 ∧ s1 < 2
  | .shuffle2 sa0 sa1 sb0 sb1 => w = 32 ∧ sa0 < 4 ∧ sa1 < 4 ∧ sb0 < 4 ∧ sb1 < 4
  | .shuffle4x2 s0 s1 s2 s3 => w = 32 ∧ s0 < 8 ∧ s1 < 8 ∧ s2 < 8 ∧ s3 < 8

/-- Expressions with shuffles. `Γ x` is the element type of the variable `x`. -/
inductive SExp (Γ : Nat → ETy) : ETy → Type
  /-- a variable -/
  | var (x : Nat) : SExp Γ (Γ x)
  /-- a lane-wise expression `e` with `V` variables, for which the expressions `arg` are substituted -/
  | lanes {t : ETy} (V : Nat) (Δ : Nat → ETy) (e : MExp Δ t) (arg : (x : Fin V) → SExp Γ (Δ x.val)) : SExp Γ t
  /-- a shuffle -/
  | shuf {t : ETy} (s : Shuf) (a b : SExp Γ t) : SExp Γ t

/-- The meaning: element `j`, for variables which are sequences of elements. -/
def SExp.den {Γ : Nat → ETy} (I : (f : FWd) → Impl f.n) (ρ : (x : Nat) → Nat → BitVec (Γ x).w) : {t : ETy} → SExp Γ t → Nat → BitVec t.w
  | _, .var x, j => ρ x j
  | _, .lanes V _ e arg, j => e.den I fun x => if h : x < V then (arg ⟨x, h⟩).den I ρ j else 0
  | _, .shuf s a b, j => s.pick (a.den I ρ) (b.den I ρ) j

/-- No `min` and no `max` of floating-point numbers in the expression. -/
def SExp.noMinMax {Γ : Nat → ETy} : {t : ETy} → SExp Γ t → Prop
  | _, .var _ => True
  | _, .lanes _ _ e arg => e.noMinMax ∧ ∀ x, (arg x).noMinMax
  | _, .shuf _ a b => a.noMinMax ∧ b.noMinMax

end MProg
end Simdpp.Spec
