import Verif.Spec.Prog

/-!
# Programs with table lookups (specification)

Straight-line programs on bytes: each statement assigns a variable the value of an expression or of an entry of a constant table. Nothing here refers to the
code model.
-/

namespace Simdpp.Spec.Table
open Spec.Prog

/-- The right-hand side of an assignment. -/
inductive Rhs
  /-- an expression over unsigned bytes (C54) -/
  | calc (e : Exp (fun _ => false) (.vec false))
  /-- the entry of a table of 16 bytes named by variable `x` -/
  | tab (T : Fin 16 → BitVec 8) (x : Nat)
  /-- the same, zero where `x` has its highest bit set -/
  | tabz (T : Fin 16 → BitVec 8) (x : Nat)
  /-- the entry of a table of 32 bytes, given in two halves -/
  | tab2 (T U : Fin 16 → BitVec 8) (x : Nat)

/-- The value, given the bytes held by the variables. -/
def Rhs.den (ρ : Nat → BitVec 8) : Rhs → BitVec 8
  | .calc e => e.den ρ
  | .tab T x => T (Fin.ofNat 16 (ρ x).toNat)
  | .tabz T x => if 128 ≤ (ρ x).toNat then 0 else T (Fin.ofNat 16 (ρ x).toNat)
  | .tab2 T U x => if (ρ x).toNat < 16 then T (Fin.ofNat 16 (ρ x).toNat) else U (Fin.ofNat 16 ((ρ x).toNat - 16))

/-- Assign `v` to variable `y`. -/
def set {α : Type} (ρ : Nat → α) (y : Nat) (v : α) : Nat → α := fun x => if x = y then v else ρ x

/-- The variables after a program `y1 = rhs1; y2 = rhs2; ...`. -/
def run : List (Nat × Rhs) → (Nat → BitVec 8) → Nat → BitVec 8
  | [], ρ => ρ
  | s :: t, ρ => run t (set ρ s.1 (s.2.den ρ))

end Simdpp.Spec.Table
