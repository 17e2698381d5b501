import Mathlib.Data.Fin.Basic
import Mathlib.Tactic.FinCases
import Mathlib.Tactic.Push
import Mathlib.Tactic.Ring

/-!
# Registers as typed lanes

Models the value representation of `simdpp/types/*.h`: a SIMD vector is a
finite sequence of lanes, lane 0 first.
-/

namespace Simdpp

/-- A vector of `n` lanes of `w` bits (e.g. `uint8<16>` = `Vec 8 16`).
Models /repo/simdpp/types/int8x16.h:29-120 and siblings: the `native()` register
seen as typed lanes. Signedness is not part of the representation
(`int8x16` and `uint8x16` wrap the same register type). -/
abbrev Vec (w n : Nat) := Fin n → BitVec w

/-- The `v`-bit value whose bit `k` is `f k`. -/
def ofBits : (v : Nat) → (Nat → Bool) → BitVec v
  | 0, _ => 0#0
  | v + 1, f => BitVec.cons (f v) (ofBits v f)

theorem ofBits_getLsbD (v : Nat) (f : Nat → Bool) (k : Nat) :
    (ofBits v f).getLsbD k = (decide (k < v) && f k) := by
  induction v with
  | zero => simp [ofBits]
  | succ v ih =>
    rw [ofBits, BitVec.getLsbD_cons, ih]
    by_cases h : k = v
    · subst h; simp
    · simp only [if_neg h]
      congr 1
      simp only [decide_eq_decide]; omega

namespace Vec

/-- Apply a lane function to each lane. -/
def map (f : BitVec w → BitVec v) (a : Vec w n) : Vec v n := fun i => f (a i)

/-- Apply a binary lane function lane by lane. -/
def map2 (f : BitVec w → BitVec v → BitVec u) (a : Vec w n) (b : Vec v n) : Vec u n :=
  fun i => f (a i) (b i)

/-- Apply a ternary lane function lane by lane. -/
def map3 (f : BitVec w → BitVec v → BitVec u → BitVec t)
    (a : Vec w n) (b : Vec v n) (c : Vec u n) : Vec t n :=
  fun i => f (a i) (b i) (c i)

/-- All lanes equal to `x`. -/
def splat (x : BitVec w) : Vec w n := fun _ => x

/-- Lane `k`, or zero past the end (used to write index arithmetic in `Nat`). -/
def at_ (a : Vec w n) (k : Nat) : BitVec w := if h : k < n then a ⟨k, h⟩ else 0

/-- Bit `k` of the whole register: bit `k % w` of lane `k / w`. -/
def bit (a : Vec w n) (k : Nat) : Bool := (a.at_ (k / w)).getLsbD (k % w)

/-- Reinterpret the register with another lane type (`bit_cast`,
`_mm_castps_si128`, `vreinterpretq_*`). Models
/repo/simdpp/detail/cast_bitwise.h and the converting constructors
(e.g. /repo/simdpp/types/int16x8.h:60-66), which keep the register's bits. -/
def recast (v m : Nat) (a : Vec w n) : Vec v m :=
  fun j => ofBits v (fun k => a.bit (j.val * v + k))

@[simp] theorem map_apply (f : BitVec w → BitVec v) (a : Vec w n) (i) :
    map f a i = f (a i) := rfl
@[simp] theorem map2_apply (f : BitVec w → BitVec v → BitVec u) (a : Vec w n) (b : Vec v n) (i) :
    map2 f a b i = f (a i) (b i) := rfl
@[simp] theorem map3_apply (f : BitVec w → BitVec v → BitVec u → BitVec t)
    (a : Vec w n) (b : Vec v n) (c : Vec u n) (i) :
    map3 f a b c i = f (a i) (b i) (c i) := rfl
@[simp] theorem splat_apply (x : BitVec w) (i : Fin n) : (splat x : Vec w n) i = x := rfl

theorem at_lt (a : Vec w n) {k : Nat} (h : k < n) : a.at_ k = a ⟨k, h⟩ := dif_pos h
@[simp] theorem at_fin (a : Vec w n) (i : Fin n) : a.at_ i.val = a i := dif_pos i.isLt
theorem at_ge (a : Vec w n) {k : Nat} (h : n ≤ k) : a.at_ k = 0 := dif_neg (by omega)

theorem recast_getLsbD (a : Vec w n) (j : Fin m) (k : Nat) :
    (recast v m a j).getLsbD k = (decide (k < v) && a.bit (j.val * v + k)) := by
  unfold recast; rw [ofBits_getLsbD]

theorem bit_recast (a : Vec w n) {k : Nat} (hv : 0 < v) (h : k < v * m) :
    (recast v m a).bit k = a.bit k := by
  unfold bit
  have hk : k / v < m := Nat.div_lt_of_lt_mul h
  rw [at_lt _ hk]
  rw [recast_getLsbD]
  have hm : k % v < v := Nat.mod_lt _ hv
  simp only [hm, decide_true, Bool.true_and]
  have : k / v * v + k % v = k := Nat.div_add_mod' k v
  rw [this]; rfl

theorem bit_eq (a : Vec w n) (i : Fin n) {k : Nat} (h : k < w) :
    a.bit (i.val * w + k) = (a i).getLsbD k := by
  unfold bit
  have hw : 0 < w := by omega
  have h1 : (i.val * w + k) / w = i.val := by
    rw [Nat.add_comm, Nat.add_mul_div_right _ _ hw, Nat.div_eq_of_lt h, Nat.zero_add]
  have h2 : (i.val * w + k) % w = k := by
    rw [Nat.add_comm, Nat.add_mul_mod_self_right, Nat.mod_eq_of_lt h]
  rw [h1, h2, at_fin]

/-- Two registers with the same lane type are equal iff all their bits are. -/
theorem ext_bit {a b : Vec w n} (h : ∀ k, k < w * n → a.bit k = b.bit k) : a = b := by
  funext i
  apply BitVec.eq_of_getLsbD_eq
  intro k hk
  have : i.val * w + k < w * n := by
    have := i.isLt
    calc i.val * w + k < i.val * w + w := by omega
      _ = w * (i.val + 1) := by ring_nf
      _ ≤ w * n := Nat.mul_le_mul_left _ (by omega)
  have := h _ this
  rwa [bit_eq a i hk, bit_eq b i hk] at this

/-- Reinterpreting and back is the identity when sizes agree. -/
theorem recast_recast (a : Vec w n) (hv : 0 < v) (hs : v * m = w * n) :
    recast w n (recast v m a) = a := by
  by_cases hw : 0 < w
  · apply ext_bit
    intro k hk
    rw [bit_recast _ hw hk, bit_recast _ hv (by omega)]
  · have : w = 0 := by omega
    subst this
    funext i
    exact Subsingleton.elim _ _

/-- Reinterpretations compose. -/
theorem recast_trans (a : Vec w n) (hv : 0 < v) (h : u * l ≤ v * m) :
    recast u l (recast v m a) = recast u l a := by
  by_cases hu : 0 < u
  · apply ext_bit
    intro k hk
    rw [bit_recast _ hu hk, bit_recast _ hu hk, bit_recast _ hv (by omega)]
  · have : u = 0 := by omega
    subst this
    funext i
    exact Subsingleton.elim _ _

theorem recast_self (a : Vec w n) : recast w n a = a := by
  by_cases hw : 0 < w
  · apply ext_bit
    intro k hk
    rw [bit_recast _ hw hk]
  · have : w = 0 := by omega
    subst this
    funext i
    exact Subsingleton.elim _ _

end Vec

/-- A loop `for (i = 0; i < n; i++) r.el(i) = f(i);` whose body may have
undefined behaviour (`none`): the loop is defined iff every iteration is. -/
def lanesM {α : Type} (f : Fin n → Option α) : Option (Fin n → α) :=
  if h : ∀ i, (f i).isSome then some (fun i => (f i).get (h i)) else none

theorem lanesM_eq_some {α : Type} {f : Fin n → Option α} {g : Fin n → α} :
    lanesM f = some g ↔ ∀ i, f i = some (g i) := by
  unfold lanesM
  constructor
  · intro h
    split at h
    · rename_i hs
      intro i
      have := Option.some.inj h
      rw [← this]; simp
    · exact absurd h (by simp)
  · intro h
    have hs : ∀ i, (f i).isSome := fun i => by rw [h i]; rfl
    rw [dif_pos hs]
    congr 1
    funext i
    simp [h i]

theorem lanesM_eq_none {α : Type} {f : Fin n → Option α} :
    lanesM f = none ↔ ∃ i, f i = none := by
  unfold lanesM
  split
  · rename_i h
    constructor
    · intro hh; exact absurd hh (by simp)
    · rintro ⟨i, hi⟩; have := h i; simp [hi] at this
  · rename_i h
    simp only [true_iff]
    push Not at h
    obtain ⟨i, hi⟩ := h
    exact ⟨i, by simpa using hi⟩

@[simp] theorem lanesM_some {α : Type} (g : Fin n → α) :
    lanesM (fun i => some (g i)) = some g := lanesM_eq_some.2 fun _ => rfl

end Simdpp
