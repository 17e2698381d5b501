import Verif.Model.Vec

/-!
# Specification of matrix transposition spread over vectors
-/

namespace Simdpp.Spec

/-- `m` vectors hold side by side `m × m` matrices, row `i` of matrix `j` in lanes `m*j ... m*j+m-1` of vector `i`.
Every matrix is replaced by its transpose: element `(i, k)` of the result is element `(k, i)` of the input. -/
def Transposed {w N : Nat} (m : Nat) (a res : Fin m → Vec w N) : Prop :=
  ∀ (i k : Fin m) (j : Nat), m * j + m ≤ N → (res i).at_ (m * j + k.val) = (a k).at_ (m * j + i.val)

/-- Transposing twice gives back the input. -/
theorem Transposed.twice {w N m : Nat} (hm : m ∣ N) {a b c : Fin m → Vec w N} (h1 : Transposed m a b)
    (h2 : Transposed m b c) : c = a := by
  funext i e
  have hm0 : 0 < m := Nat.lt_of_le_of_lt (Nat.zero_le _) i.isLt
  obtain ⟨q, rfl⟩ := hm
  have hj : e.val / m < q := Nat.div_lt_of_lt_mul e.isLt
  have hle : m * (e.val / m) + m ≤ m * q := by
    calc m * (e.val / m) + m = m * (e.val / m + 1) := by ring
      _ ≤ m * q := Nat.mul_le_mul_left _ hj
  have p2 := h2 i ⟨e.val % m, Nat.mod_lt _ hm0⟩ (e.val / m) hle
  have p1 := h1 ⟨e.val % m, Nat.mod_lt _ hm0⟩ i (e.val / m) hle
  simp only [Nat.div_add_mod] at p1 p2
  rw [p1] at p2
  rwa [Vec.at_fin, Vec.at_fin] at p2

end Simdpp.Spec
