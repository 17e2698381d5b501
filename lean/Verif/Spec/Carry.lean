import Verif.Spec.SProg
import Mathlib.Algebra.BigOperators.Group.Finset.Basic

/-!
# Loops which carry a vector (specification)

A loop whose steps hand a vector to the next step. Nothing here refers to the code model.
-/

namespace Simdpp.Spec
namespace MProg
open Prog FProg

/-- The carried vector before step `i`: at first `s`; step `i` computes the next one with `nx` from the elements `i * N`, `i * N + 1`, .. of the
arrays `A x` (the variables `x < V`) and the carried vector (the variable `V`). -/
def carried {Γ : Nat → ETy} (I : (f : FWd) → Impl f.n) (N V : Nat) (nx : SExp Γ (Γ V)) (A : (x : Nat) → Nat → BitVec (Γ x).w) (s : Nat → BitVec (Γ V).w) :
    Nat → Nat → BitVec (Γ V).w
  | 0 => s
  | i + 1 => nx.den I (Function.update (fun x j => A x (i * N + j)) V (carried I N V nx A s i))

/-- The variables in step `i`. -/
def stepVars {Γ : Nat → ETy} (I : (f : FWd) → Impl f.n) (N V : Nat) (nx : SExp Γ (Γ V)) (A : (x : Nat) → Nat → BitVec (Γ x).w) (s : Nat → BitVec (Γ V).w) (i : Nat) :
    (x : Nat) → Nat → BitVec (Γ x).w :=
  Function.update (fun x j => A x (i * N + j)) V (carried I N V nx A s i)

/-- Running sums: element `j` is the sum of the elements up to `j`, modulo `2 ^ w`. -/
def runningSum {w : Nat} (A : Nat → BitVec w) (j : Nat) : BitVec w := BitVec.ofNat w (∑ l ∈ Finset.range (j + 1), (A l).toNat)

/-- Differences: element `j` minus the one before it, modulo `2 ^ w`. -/
def difference {w : Nat} (A : Nat → BitVec w) (j : Nat) : BitVec w :=
  BitVec.ofInt w (((A j).toNat : Int) - if j = 0 then 0 else ((A (j - 1)).toNat : Int))

/-- A filter: element `j` is the sum of `h 0` times the element `j`, `h 1` times the one before it and so on, for `T` weights, modulo `2 ^ w`; there are zeros
before the first element. -/
def weighted {w : Nat} (h : Nat → BitVec 64) (T : Nat) (A : Nat → BitVec w) (j : Nat) : BitVec w :=
  BitVec.ofNat w (∑ k ∈ Finset.range T, (h k).toNat * if k ≤ j then (A (j - k)).toNat else 0)

end MProg
end Simdpp.Spec
