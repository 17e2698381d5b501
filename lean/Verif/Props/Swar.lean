import Verif.Spec.Int
import Mathlib.Tactic.Ring
import Mathlib.Tactic.Linarith

/-! Bytewise evaluation of the bit-trick population count, on natural numbers. -/

namespace Simdpp.Swar
open Spec

/-- Apply `f` to each of the `k` low bytes. -/
def bmap (f : Nat → Nat) : Nat → Nat → Nat
  | 0, _ => 0
  | k + 1, x => f (x % 256) + 256 * bmap f k (x / 256)

/-- The byte `m` repeated `k` times. -/
def rep (m : Nat) : Nat → Nat
  | 0 => 0
  | k + 1 => m + 256 * rep m k

/-- Sum of `f` over the `k` low bytes. -/
def bsum (f : Nat → Nat) : Nat → Nat → Nat
  | 0, _ => 0
  | k + 1, x => f (x % 256) + bsum f k (x / 256)

/-- Number of set bits among the `w` lowest. -/
def cnt (w x : Nat) : Nat := ((List.range w).filter (fun k => x.testBit k)).length

theorem and_block {l m : Nat} (hl : l < 256) (hm : m < 256) (x y : Nat) : (l + 256 * x) &&& (m + 256 * y) = (l &&& m) + 256 * (x &&& y) := by
  have h1 : l &&& m < 256 := Nat.lt_of_le_of_lt Nat.and_le_left hl
  apply Nat.eq_of_testBit_eq
  intro j
  rw [Nat.testBit_and, Nat.add_comm l, Nat.add_comm m, Nat.add_comm (l &&& m)]
  rw [show 256 = 2 ^ 8 by decide] at *
  rw [Nat.testBit_two_pow_mul_add _ hl, Nat.testBit_two_pow_mul_add _ hm, Nat.testBit_two_pow_mul_add _ h1]
  split_ifs <;> simp [Nat.testBit_and]

theorem bmap_id : ∀ (k x : Nat), x < 256 ^ k → bmap id k x = x
  | 0, x, h => by simp at h; simp [bmap, h]
  | k + 1, x, h => by
    unfold bmap
    rw [bmap_id k (x / 256) (by rw [Nat.div_lt_iff_lt_mul (by decide), ← Nat.pow_succ]; exact h)]
    simp only [id]; omega

theorem bmap_lt {f : Nat → Nat} (hf : ∀ b, b < 256 → f b < 256) : ∀ k x, bmap f k x < 256 ^ k
  | 0, x => by simp [bmap]
  | k + 1, x => by
    unfold bmap
    have h1 := hf (x % 256) (by omega)
    have h2 := bmap_lt hf k (x / 256)
    rw [Nat.pow_succ]
    omega

theorem bmap_congr {f g : Nat → Nat} (h : ∀ b, b < 256 → f b = g b) : ∀ k x, bmap f k x = bmap g k x
  | 0, _ => rfl
  | k + 1, x => by
    unfold bmap
    rw [h _ (by omega), bmap_congr h k]

theorem bmap_add (f g : Nat → Nat) : ∀ k x, bmap f k x + bmap g k x = bmap (fun b => f b + g b) k x
  | 0, _ => rfl
  | k + 1, x => by
    have := bmap_add f g k (x / 256)
    unfold bmap
    omega

theorem bmap_sub {f g : Nat → Nat} (h : ∀ b, b < 256 → g b ≤ f b) :
    ∀ k x, bmap f k x - bmap g k x = bmap (fun b => f b - g b) k x ∧ bmap g k x ≤ bmap f k x
  | 0, _ => ⟨rfl, Nat.le_refl _⟩
  | k + 1, x => by
    have h1 := bmap_sub h k (x / 256)
    have h2 := h (x % 256) (by omega)
    unfold bmap
    omega

theorem bmap_and {f : Nat → Nat} {m : Nat} (hf : ∀ b, b < 256 → f b < 256) (hm : m < 256) :
    ∀ k x, bmap f k x &&& rep m k = bmap (fun b => f b &&& m) k x
  | 0, _ => by simp [bmap, rep]
  | k + 1, x => by
    unfold bmap rep
    rw [and_block (hf _ (by omega)) hm, bmap_and hf hm k]

/-- A shift followed by a mask that clears the bits that came from the next byte. -/
theorem bmap_shr_and {f : Nat → Nat} {m s : Nat} (hs : s ≤ 8) (hf : ∀ b, b < 256 → f b < 256) (hm : m < 2 ^ (8 - s)) :
    ∀ k x, (bmap f k x >>> s) &&& rep m k = bmap (fun b => (f b >>> s) &&& m) k x
  | 0, _ => by simp [bmap, rep]
  | k + 1, x => by
    have ih := bmap_shr_and hs hf hm k (x / 256)
    unfold bmap rep
    rw [← ih]
    generalize bmap f k (x / 256) = X
    have h1 := hf (x % 256) (by omega)
    generalize f (x % 256) = b at *
    have hm' : m < 256 := Nat.lt_of_lt_of_le hm (by rw [show 256 = 2 ^ 8 by decide]; exact Nat.pow_le_pow_right (by decide) (by omega))
    have hp : 0 < 2 ^ s := by positivity
    have h8 : 256 = 2 ^ (8 - s) * 2 ^ s := by rw [← Nat.pow_add, Nat.sub_add_cancel hs]
    have e1 : (b + 256 * X) >>> s = (b >>> s + 2 ^ (8 - s) * (X % 2 ^ s)) + 256 * (X >>> s) := by
      simp only [Nat.shiftRight_eq_div_pow]
      have hx := Nat.div_add_mod X (2 ^ s)
      rw [show b + 256 * X = b + 2 ^ s * (2 ^ (8 - s) * X) by rw [h8]; ring, Nat.add_mul_div_left _ _ hp]
      generalize hP : 2 ^ s = P at *
      generalize hQ : 2 ^ (8 - s) = Q at *
      rw [h8]
      calc b / P + Q * X = b / P + Q * (P * (X / P) + X % P) := by rw [hx]
        _ = b / P + Q * (X % P) + Q * P * (X / P) := by ring
    have hb : b >>> s < 2 ^ (8 - s) := by
      rw [Nat.shiftRight_eq_div_pow, Nat.div_lt_iff_lt_mul hp, ← h8]; exact h1
    have hlow : b >>> s + 2 ^ (8 - s) * (X % 2 ^ s) < 256 := by
      have hx : X % 2 ^ s < 2 ^ s := Nat.mod_lt _ hp
      rw [h8]
      calc b >>> s + 2 ^ (8 - s) * (X % 2 ^ s) < 2 ^ (8 - s) * 1 + 2 ^ (8 - s) * (X % 2 ^ s) := by omega
        _ = 2 ^ (8 - s) * (1 + X % 2 ^ s) := by ring
        _ ≤ 2 ^ (8 - s) * 2 ^ s := Nat.mul_le_mul_left _ (by omega)
    rw [e1, and_block hlow hm']
    congr 1
    -- the bits from the next byte are masked out
    apply Nat.eq_of_testBit_eq
    intro j
    rw [Nat.testBit_and, Nat.testBit_and, Nat.add_comm, Nat.testBit_two_pow_mul_add _ hb]
    split_ifs with g
    · rfl
    · have : m.testBit j = false := Nat.testBit_lt_two_pow (Nat.lt_of_lt_of_le hm (Nat.pow_le_pow_right (by decide) (by omega)))
      rw [this]; simp

/-- Add the nibbles of each byte. -/
theorem bmap_nibbles {f : Nat → Nat} (hf : ∀ b, b < 256 → f b / 16 ≤ 4 ∧ f b % 16 ≤ 4) :
    ∀ k x, (bmap f k x + bmap f k x >>> 4) &&& rep 15 k = bmap (fun b => f b / 16 + f b % 16) k x ∧
      bmap f k x % 16 ≤ 4 ∧ bmap f k x + bmap f k x >>> 4 < 256 ^ k
  | 0, _ => by simp [bmap, rep]
  | k + 1, x => by
    obtain ⟨ih, ih2, ih3⟩ := bmap_nibbles hf k (x / 256)
    unfold bmap rep
    rw [← ih]
    simp only [Nat.shiftRight_eq_div_pow] at *
    generalize bmap f k (x / 256) = X at *
    have h1 := hf (x % 256) (by omega)
    generalize f (x % 256) = b at *
    have e : (b + 256 * X) + (b + 256 * X) / 2 ^ 4 = (b + b / 16 + 16 * (X % 16)) + 256 * (X + X / 2 ^ 4) := by omega
    refine ⟨?_, by omega, ?_⟩
    · rw [e, and_block (by omega) (by decide)]
      congr 1
      rw [show 15 = 2 ^ 4 - 1 by decide, Nat.and_two_pow_sub_one_eq_mod]
      omega
    · rw [e, Nat.pow_succ]
      omega

/-! ## Counting -/

theorem cnt_lt (w x : Nat) : cnt w x ≤ w := by
  have := List.length_filter_le (fun k => x.testBit k) (List.range w)
  rw [List.length_range] at this
  exact this

/-- Bits of a number cut in two. -/
theorem cnt_add (u v x : Nat) : cnt (u + v) x = cnt u (x % 2 ^ u) + cnt v (x / 2 ^ u) := by
  unfold cnt
  rw [List.range_add, List.filter_append, List.length_append]
  congr 1
  · congr 1
    apply List.filter_congr
    intro k hk
    rw [List.mem_range] at hk
    rw [Nat.testBit_mod_two_pow]; simp [hk]
  · rw [List.filter_map, List.length_map]
    congr 1
    apply List.filter_congr
    intro k hk
    simp only [Function.comp]
    rw [Nat.testBit_div_two_pow, Nat.add_comm]

theorem bsum_cnt : ∀ k x, bsum (cnt 8) k x = cnt (8 * k) x
  | 0, _ => rfl
  | k + 1, x => by
    unfold bsum
    rw [bsum_cnt k, show 8 * (k + 1) = 8 + 8 * k by ring, cnt_add]
    norm_num

/-! ## The three steps -/

/-- First step: pairs. -/
def s1 (b : Nat) : Nat := b - ((b >>> 1) &&& 0x55)
/-- Second step: nibbles. -/
def s2 (b : Nat) : Nat := (s1 b &&& 0x33) + ((s1 b >>> 2) &&& 0x33)

theorem s1_ok : ∀ b, b < 256 → (b >>> 1) &&& 0x55 ≤ b ∧ s1 b < 256 := by decide +kernel
theorem s2_ok : ∀ b, b < 256 → s2 b / 16 ≤ 4 ∧ s2 b % 16 ≤ 4 ∧ s2 b < 256 ∧ s2 b / 16 + s2 b % 16 = cnt 8 b := by decide +kernel

/-- The three steps on `k` bytes: no step overflows or borrows, and the result holds the count of every byte. -/
theorem swar {k x : Nat} (hx : x < 256 ^ k) :
    let p1 := x - ((x >>> 1) &&& rep 0x55 k)
    let p2 := (p1 &&& rep 0x33 k) + ((p1 >>> 2) &&& rep 0x33 k)
    ((x >>> 1) &&& rep 0x55 k ≤ x ∧ p1 < 256 ^ k) ∧ p2 < 256 ^ k ∧ p2 + p2 >>> 4 < 256 ^ k ∧
      (p2 + p2 >>> 4) &&& rep 15 k = bmap (cnt 8) k x := by
  intro p1 p2
  have e0 := bmap_id k x hx
  have ea : (x >>> 1) &&& rep 0x55 k = bmap (fun b => (b >>> 1) &&& 0x55) k x := by
    have := bmap_shr_and (f := id) (m := 0x55) (s := 1) (by decide) (fun b hb => hb) (by decide) k x
    rw [e0] at this; exact this
  have es := bmap_sub (f := id) (g := fun b => (b >>> 1) &&& 0x55) (fun b hb => (s1_ok b hb).1) k x
  rw [e0] at es
  have ep1 : p1 = bmap s1 k x := by
    show x - _ = _
    rw [ea]; exact es.1
  have hs1 : ∀ b, b < 256 → s1 b < 256 := fun b hb => (s1_ok b hb).2
  have ep2 : p2 = bmap s2 k x := by
    show (p1 &&& _) + ((p1 >>> 2) &&& _) = _
    rw [ep1, bmap_and hs1 (by decide), bmap_shr_and (by decide) hs1 (by decide), bmap_add]
    rfl
  obtain ⟨e3, -, e4⟩ := bmap_nibbles (f := s2) (fun b hb => ⟨(s2_ok b hb).1, (s2_ok b hb).2.1⟩) k x
  refine ⟨⟨by rw [ea]; exact es.2, ?_⟩, ?_, ?_, ?_⟩
  · rw [ep1]; exact bmap_lt hs1 k x
  · rw [ep2]; exact bmap_lt (fun b hb => (s2_ok b hb).2.2.1) k x
  · rw [ep2]; exact e4
  · rw [ep2, e3]
    exact bmap_congr (fun b hb => (s2_ok b hb).2.2.2) k x

end Simdpp.Swar
