import Verif.Model.Vec

/-!
# Vectors longer than the native register

`int32<16>` etc. on a build with 128-bit registers is an array of base vectors
(`simdpp/types/int8.h` … `float64.h`, `SIMDPP_VEC_ARRAY_IMPL*`). `Fin k → α` is that array.
-/

namespace Simdpp.Arr

variable {α β γ δ : Type} {k : Nat}

/-- `dst.vec<I>() = x`. -/
def set (d : Fin k → α) (i : Fin k) (x : α) : Fin k → α := fun j => if j = i then x else d j

/-- `vec_array_impl<I, End>::apply1`: `dst.vec<I>() = op(src.vec<I>())`, then recurse on `I + 1`;
stops at `I = End`. Models /repo/simdpp/detail/vector_array_macros.h:21-28, 68-71, 89-93. -/
def apply1 (op : α → Option β) (src : Fin k → α) (I : Nat) (dst : Fin k → β) :
    Option (Fin k → β) :=
  if h : I < k then do
    let x ← op (src ⟨I, h⟩)
    apply1 op src (I + 1) (set dst ⟨I, h⟩ x)
  else some dst
termination_by k - I

/-- `vec_array_impl::apply2`. Models /repo/simdpp/detail/vector_array_macros.h:30-35, 73-74, 95-100. -/
def apply2 (op : α → β → Option γ) (a : Fin k → α) (b : Fin k → β) (I : Nat) (dst : Fin k → γ) :
    Option (Fin k → γ) :=
  if h : I < k then do
    let x ← op (a ⟨I, h⟩) (b ⟨I, h⟩)
    apply2 op a b (I + 1) (set dst ⟨I, h⟩ x)
  else some dst
termination_by k - I

/-- `vec_array_impl::apply2_scalar`. Models
/repo/simdpp/detail/vector_array_macros.h:37-42, 76-77, 102-106. -/
def apply2S (op : α → β → Option γ) (a : Fin k → α) (b : β) (I : Nat) (dst : Fin k → γ) :
    Option (Fin k → γ) :=
  if h : I < k then do
    let x ← op (a ⟨I, h⟩) b
    apply2S op a b (I + 1) (set dst ⟨I, h⟩ x)
  else some dst
termination_by k - I

/-- `vec_array_impl::apply3`. Models
/repo/simdpp/detail/vector_array_macros.h:44-51, 79-80, 108-113. -/
def apply3 (op : α → β → γ → Option δ) (a : Fin k → α) (b : Fin k → β) (e : Fin k → γ) (I : Nat)
    (dst : Fin k → δ) : Option (Fin k → δ) :=
  if h : I < k then do
    let x ← op (a ⟨I, h⟩) (b ⟨I, h⟩) (e ⟨I, h⟩)
    apply3 op a b e (I + 1) (set dst ⟨I, h⟩ x)
  else some dst
termination_by k - I

/-- The flat sequence of lanes of an array of registers: lane `j` is lane
`j % L` of register `j / L`. (This is the meaning of a long vector, e.g.
/repo/simdpp/types/float32.h:56-62 `vec(i)`.) -/
def flat {L : Nat} (v : Fin k → Fin L → α) : Fin (k * L) → α :=
  fun j => v ⟨j.val / L, Nat.div_lt_of_lt_mul (by
      have := j.isLt; have := Nat.mul_comm k L; omega)⟩
    ⟨j.val % L, Nat.mod_lt _ (Nat.pos_of_ne_zero fun h => by have := j.isLt; subst h; simp at this)⟩

theorem apply1_spec (op : α → Option β) (src : Fin k → α) (g : Fin k → β)
    (h : ∀ i, op (src i) = some (g i)) (I : Nat) (dst : Fin k → β) :
    apply1 op src I dst = some (fun j => if I ≤ j.val then g j else dst j) := by
  by_cases hI : I < k
  · rw [apply1, dif_pos hI, h ⟨I, hI⟩]
    show apply1 op src (I + 1) _ = _
    rw [apply1_spec op src g h (I + 1)]
    congr 1; funext j; simp only [set, Fin.ext_iff]
    split_ifs <;> first | rfl | omega | (have : j = ⟨I, hI⟩ := Fin.ext (by assumption)); rw [this]
  · rw [apply1, dif_neg hI]
    congr 1; funext j; rw [if_neg (by have := j.isLt; omega)]
termination_by k - I

theorem apply2_spec (op : α → β → Option γ) (a : Fin k → α) (b : Fin k → β) (g : Fin k → γ)
    (h : ∀ i, op (a i) (b i) = some (g i)) (I : Nat) (dst : Fin k → γ) :
    apply2 op a b I dst = some (fun j => if I ≤ j.val then g j else dst j) := by
  by_cases hI : I < k
  · rw [apply2, dif_pos hI, h ⟨I, hI⟩]
    show apply2 op a b (I + 1) _ = _
    rw [apply2_spec op a b g h (I + 1)]
    congr 1; funext j; simp only [set, Fin.ext_iff]
    split_ifs <;> first | rfl | omega | (have : j = ⟨I, hI⟩ := Fin.ext (by assumption)); rw [this]
  · rw [apply2, dif_neg hI]
    congr 1; funext j; rw [if_neg (by have := j.isLt; omega)]
termination_by k - I

theorem apply2S_spec (op : α → β → Option γ) (a : Fin k → α) (b : β) (g : Fin k → γ)
    (h : ∀ i, op (a i) b = some (g i)) (I : Nat) (dst : Fin k → γ) :
    apply2S op a b I dst = some (fun j => if I ≤ j.val then g j else dst j) := by
  by_cases hI : I < k
  · rw [apply2S, dif_pos hI, h ⟨I, hI⟩]
    show apply2S op a b (I + 1) _ = _
    rw [apply2S_spec op a b g h (I + 1)]
    congr 1; funext j; simp only [set, Fin.ext_iff]
    split_ifs <;> first | rfl | omega | (have : j = ⟨I, hI⟩ := Fin.ext (by assumption)); rw [this]
  · rw [apply2S, dif_neg hI]
    congr 1; funext j; rw [if_neg (by have := j.isLt; omega)]
termination_by k - I

theorem apply3_spec (op : α → β → γ → Option δ) (a : Fin k → α) (b : Fin k → β) (e : Fin k → γ)
    (g : Fin k → δ) (h : ∀ i, op (a i) (b i) (e i) = some (g i)) (I : Nat) (dst : Fin k → δ) :
    apply3 op a b e I dst = some (fun j => if I ≤ j.val then g j else dst j) := by
  by_cases hI : I < k
  · rw [apply3, dif_pos hI, h ⟨I, hI⟩]
    show apply3 op a b e (I + 1) _ = _
    rw [apply3_spec op a b e g h (I + 1)]
    congr 1; funext j; simp only [set, Fin.ext_iff]
    split_ifs <;> first | rfl | omega | (have : j = ⟨I, hI⟩ := Fin.ext (by assumption)); rw [this]
  · rw [apply3, dif_neg hI]
    congr 1; funext j; rw [if_neg (by have := j.isLt; omega)]
termination_by k - I

end Simdpp.Arr
