import Verif.Spec.Mem

/-!
# Matrices in memory (specification)
-/

namespace Simdpp.Spec

/-- Address `a` belongs to an element of the matrix of `H` rows of `W` elements of `w` bits, `P` elements from row to row, at `p`. -/
def InMatrix (w p P H W a : Nat) : Prop := ∃ y x, y < H ∧ x < W ∧ InElem w (p + y * P * (w / 8)) x a

/-- `f (... (f (f s x_0 y_0) x_1 y_1) ...) x_(n-1) y_(n-1)`: one element of a matrix product, added up in the order of the index. -/
def foldPairs {σ α β : Type} (f : σ → α → β → σ) (s : σ) (x : Nat → α) (y : Nat → β) : Nat → σ
  | 0 => s
  | n + 1 => f (foldPairs f s x y n) (x n) (y n)

/-- `x_0 * y_0 + ... + x_(n-1) * y_(n-1)` as integers. -/
def dot (x y : Nat → Int) : Nat → Int
  | 0 => 0
  | n + 1 => dot x y n + x n * y n

end Simdpp.Spec
