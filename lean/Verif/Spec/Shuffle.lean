import Verif.Model.Vec

/-!
# Specification vocabulary for lane-moving operations

Nothing here refers to a model of the library.
-/

namespace Simdpp.Spec

/-- In every complete block of `L` consecutive lanes, result lane `j` is lane `sel j` of the same
block of `a`, or lane `sel j - L` of the same block of `b` when `sel j ≥ L`. -/
def Picks {w N : Nat} (L : Nat) (sel : Nat → Nat) (a b res : Vec w N) : Prop :=
  ∀ q j, j < L → q * L + j < N →
    res.at_ (q * L + j) = if sel j < L then a.at_ (q * L + sel j) else b.at_ (q * L + (sel j - L))

/-- In every complete block of `L` lanes, the result alternates `L / 2` consecutive lanes of `a` and of
`b`, starting at lane `s` of the block. -/
def Interleaves {w N : Nat} (L s : Nat) (a b res : Vec w N) : Prop :=
  ∀ q j, j < L / 2 → q * L + L ≤ N →
    res.at_ (q * L + 2 * j) = a.at_ (q * L + s + j) ∧ res.at_ (q * L + 2 * j + 1) = b.at_ (q * L + s + j)

/-- In every complete block of `L` lanes, the low half of the result is every second lane of `a`, the
high half every second lane of `b`, starting at lane `e` of the block. -/
def Deinterleaves {w N : Nat} (L e : Nat) (a b res : Vec w N) : Prop :=
  ∀ q j, j < L / 2 → q * L + L ≤ N →
    res.at_ (q * L + j) = a.at_ (q * L + 2 * j + e) ∧ res.at_ (q * L + L / 2 + j) = b.at_ (q * L + 2 * j + e)

end Simdpp.Spec
