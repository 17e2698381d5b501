import Mathlib.Data.List.Perm.Basic

/-!
# Specification: combination trees

A reduction of floating-point lanes depends on the order in which the lanes are combined. A tree fixes that order: the leaves are
lane numbers, every inner node combines the results of its two subtrees.
-/

namespace Simdpp.Spec

inductive Tree where
  | leaf (i : Nat)
  | node (l r : Tree)
  deriving DecidableEq

namespace Tree
variable {α : Type}

/-- The lane numbers, from left to right. -/
def leaves : Tree → List Nat
  | leaf i => [i]
  | node l r => l.leaves ++ r.leaves

/-- Combine the values `f 0`, `f 1`, ... with `op` in the order of the tree. -/
def eval (op : α → α → α) (f : Nat → α) : Tree → α
  | leaf i => f i
  | node l r => op (l.eval op f) (r.eval op f)

/-- `x` is a possible result when `R y z x` says that `x` is a possible combination of `y` and `z`. -/
def Yields (R : α → α → α → Prop) (f : Nat → α) : Tree → α → Prop
  | leaf i, x => x = f i
  | node l r, x => ∃ y z, l.Yields R f y ∧ r.Yields R f z ∧ R y z x

end Tree
end Simdpp.Spec
