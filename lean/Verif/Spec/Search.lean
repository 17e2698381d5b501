import Verif.Spec.Prog

/-!
# Searching (specification)

Nothing here refers to the code model.
-/

namespace Simdpp.Spec

/-- `r` is the position of the first of `cnt` elements which satisfies `Q`, or `cnt` if there is none. -/
structure IsFirst (Q : Nat → Bool) (cnt r : Nat) : Prop where
  le : r ≤ cnt
  before : ∀ j, j < r → Q j = false
  here : r < cnt → Q r = true

theorem IsFirst.unique {Q : Nat → Bool} {cnt r s : Nat} (hr : IsFirst Q cnt r) (hs : IsFirst Q cnt s) : r = s := by
  rcases Nat.lt_trichotomy r s with g | g | g
  · exact absurd ((hs.before r g).symm.trans (hr.here (Nat.lt_of_lt_of_le g hs.le))) Bool.false_ne_true
  · exact g
  · exact absurd ((hr.before s g).symm.trans (hs.here (Nat.lt_of_lt_of_le g hr.le))) Bool.false_ne_true

end Simdpp.Spec
