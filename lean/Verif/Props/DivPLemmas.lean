import Verif.Model.DivP
import Verif.Props.ShiftV32

/-! Lemmas about reduced-precision division. -/

namespace Simdpp
open Spec Sh

variable {w n : Nat}

/-- Quotient bits found after the upper `P - i` bits of `x` have been brought down. -/
def qPart (P x D i : Nat) : Nat := if D = 0 then 2 ^ P - 2 ^ i else x / 2 ^ i / D * 2 ^ i

theorem div_step {x D i : Nat} : let r := (x / 2 ^ (i + 1)) % D
    let r1 := 2 * r + x / 2 ^ i % 2
    (x / 2 ^ i) % D = (if r1 < D then r1 else r1 - D) := by
  have e : x / 2 ^ i = 2 * (x / 2 ^ (i + 1)) + x / 2 ^ i % 2 := by
    rw [Nat.pow_succ, ← Nat.div_div_eq_div_mul]; omega
  generalize x / 2 ^ (i + 1) = y at *
  generalize x / 2 ^ i = z at *
  dsimp only
  by_cases hD : D = 0
  · subst hD; simp only [Nat.mod_zero]; simp; omega
  · have hr := Nat.mod_lt y (Nat.pos_of_ne_zero hD)
    have hy := Nat.div_add_mod y D
    have e2 : z = (y % D * 2 + z % 2) + D * (2 * (y / D)) := by
      have : D * (2 * (y / D)) = 2 * (D * (y / D)) := by ring
      omega
    have e3 : z % D = (y % D * 2 + z % 2) % D := by
      conv_lhs => rw [e2]
      exact Nat.add_mul_mod_self_left _ _ _
    rw [e3]
    split_ifs with g
    · rw [Nat.mod_eq_of_lt (by omega)]; omega
    · rw [Nat.mod_eq_sub_mod (by omega), Nat.mod_eq_of_lt (by omega)]; omega

theorem quo_step {P x D i : Nat} (hi : i < P) : let r := (x / 2 ^ (i + 1)) % D
    let r1 := 2 * r + x / 2 ^ i % 2
    qPart P x D i = qPart P x D (i + 1) + (if r1 < D then 0 else 2 ^ i) := by
  have e : x / 2 ^ i = 2 * (x / 2 ^ (i + 1)) + x / 2 ^ i % 2 := by
    rw [Nat.pow_succ, ← Nat.div_div_eq_div_mul]; omega
  have hp : 2 ^ (i + 1) = 2 * 2 ^ i := by ring
  unfold qPart
  dsimp only
  by_cases hD : D = 0
  · subst hD
    have : 2 ^ (i + 1) ≤ 2 ^ P := Nat.pow_le_pow_right (by decide) hi
    simp; omega
  · rw [if_neg hD, if_neg hD, hp]
    rw [hp] at e
    generalize x / (2 * 2 ^ i) = y at *
    generalize x / 2 ^ i = z at *
    have hr := Nat.mod_lt y (Nat.pos_of_ne_zero hD)
    have hy := Nat.div_add_mod y D
    have e2 : z = (y % D * 2 + z % 2) + D * (2 * (y / D)) := by
      have : D * (2 * (y / D)) = 2 * (D * (y / D)) := by ring
      omega
    have e3 : z / D = (y % D * 2 + z % 2) / D + 2 * (y / D) := by
      conv_lhs => rw [e2]
      exact Nat.add_mul_div_left _ _ (Nat.pos_of_ne_zero hD)
    rw [e3]
    split_ifs with g
    · rw [Nat.div_eq_of_lt (by omega)]; ring
    · have : (y % D * 2 + z % 2) / D = 1 := by
        rw [Nat.div_eq_of_lt_le] <;> omega
      rw [this]; ring

theorem qPart_dvd {P x D i : Nat} (hi : i ≤ P) : 2 ^ i ∣ qPart P x D i := by
  unfold qPart
  split_ifs
  · exact Nat.dvd_sub (Nat.pow_dvd_pow 2 hi) (Nat.dvd_refl _)
  · exact Nat.dvd_mul_left _ _

theorem qPart_lt {P x D i : Nat} (hx : x < 2 ^ P) (hi : i ≤ P) : qPart P x D i < 2 ^ P := by
  unfold qPart
  split_ifs
  · have := Nat.pow_pos (n := i) (show 0 < 2 by decide)
    have : 2 ^ i ≤ 2 ^ P := Nat.pow_le_pow_right (by decide) hi
    omega
  · refine lt_of_le_of_lt ?_ hx
    calc x / 2 ^ i / D * 2 ^ i ≤ x / 2 ^ i * 2 ^ i := Nat.mul_le_mul_right _ (Nat.div_le_self _ _)
      _ ≤ x := Nat.div_mul_le_self _ _

/-- One iteration on one lane. -/
theorem div_lane {P i : Nat} (hP : P ≤ w) (hi : i < P) (N D : BitVec w) :
    let x := N.toNat % 2 ^ P
    let r : BitVec w := BitVec.ofNat w (x / 2 ^ (i + 1) % D.toNat)
    let r1 := (r <<< 1) ||| ((N &&& BitVec.twoPow w i) >>> i)
    let cmp := maskLane w (decide (val false r1 < val false D))
    r1 - (D &&& ~~~ cmp) = BitVec.ofNat w (x / 2 ^ i % D.toNat) ∧
    BitVec.ofNat w (qPart P x D.toNat (i + 1)) ||| (BitVec.twoPow w i &&& ~~~ cmp) = BitVec.ofNat w (qPart P x D.toNat i) := by
  intro x r r1 cmp
  have hx : x < 2 ^ P := Nat.mod_lt _ (Nat.pow_pos (by decide))
  have hPw : 2 ^ P ≤ 2 ^ w := Nat.pow_le_pow_right (by decide) hP
  have hp : 2 ^ (i + 1) = 2 * 2 ^ i := by ring
  have hi2 : 2 ^ i < 2 ^ w := Nat.pow_lt_pow_right (by decide) (by omega)
  have hdm := Nat.mod_le (x / 2 ^ (i + 1)) D.toNat
  have hle : 2 * (x / 2 ^ (i + 1)) + x / 2 ^ i % 2 = x / 2 ^ i := by
    rw [Nat.pow_succ, ← Nat.div_div_eq_div_mul]; omega
  have hle2 : x / 2 ^ i ≤ x := Nat.div_le_self _ _
  have hr : r.toNat = x / 2 ^ (i + 1) % D.toNat := by
    rw [BitVec.toNat_ofNat, Nat.mod_eq_of_lt]; omega
  have hb : ((N &&& BitVec.twoPow w i) >>> i).toNat = x / 2 ^ i % 2 := by
    rw [BitVec.toNat_ushiftRight, BitVec.toNat_and, BitVec.toNat_twoPow, Nat.mod_eq_of_lt hi2, Nat.shiftRight_and_distrib,
      Nat.shiftRight_eq_div_pow (2 ^ i), Nat.div_self (Nat.pow_pos (by decide)), Nat.and_one_is_mod, Nat.shiftRight_eq_div_pow]
    show _ = N.toNat % 2 ^ P / 2 ^ i % 2
    have hs : 2 ^ P = 2 ^ i * (2 * 2 ^ (P - i - 1)) := by
      rw [← Nat.pow_succ', ← Nat.pow_add]; congr 1; omega
    rw [hs, Nat.mod_mul_right_div_self, Nat.mod_mul_right_mod]
  have hr1 : r1.toNat = 2 * (x / 2 ^ (i + 1) % D.toNat) + x / 2 ^ i % 2 := by
    show ((r <<< 1) ||| ((N &&& BitVec.twoPow w i) >>> i)).toNat = _
    rw [BitVec.toNat_or, hb, BitVec.toNat_shiftLeft, hr, Nat.shiftLeft_eq, Nat.mod_eq_of_lt (by omega), Nat.pow_one,
      Nat.mul_comm _ 2]
    have := Nat.two_pow_add_eq_or_of_lt (i := 1) (b := x / 2 ^ i % 2) (by omega) (x / 2 ^ (i + 1) % D.toNat)
    rw [Nat.pow_one] at this
    exact this.symm
  have hcmp : cmp = maskLane w (decide (2 * (x / 2 ^ (i + 1) % D.toNat) + x / 2 ^ i % 2 < D.toNat)) := by
    show maskLane w (decide (val false r1 < val false D)) = _
    simp only [val, Bool.false_eq_true, if_false, hr1]
    congr 2
    exact propext (by omega)
  have s1 := div_step (x := x) (D := D.toNat) (i := i)
  have s2 := quo_step (x := x) (D := D.toNat) hi
  dsimp only at s1 s2
  have hq := qPart_lt (D := D.toNat) hx (show i + 1 ≤ P by omega)
  constructor
  · apply BitVec.eq_of_toNat_eq
    rw [hcmp, andnot_maskLane, BitVec.toNat_ofNat, Nat.mod_eq_of_lt (a := x / 2 ^ i % D.toNat)
      (by have := Nat.mod_le (x / 2 ^ i) D.toNat; omega), s1]
    by_cases g : 2 * (x / 2 ^ (i + 1) % D.toNat) + x / 2 ^ i % 2 < D.toNat
    · simp only [g, decide_true, if_true]
      simpa using hr1
    · simp only [g, decide_false, if_false, Bool.false_eq_true]
      rw [BitVec.toNat_sub_of_le (by rw [BitVec.le_def, hr1]; omega), hr1]
  · apply BitVec.eq_of_toNat_eq
    rw [hcmp, andnot_maskLane, BitVec.toNat_ofNat, Nat.mod_eq_of_lt (a := qPart P x D.toNat i)
      (by have := qPart_lt (D := D.toNat) hx (show i ≤ P by omega); omega), s2, BitVec.toNat_or, BitVec.toNat_ofNat,
      Nat.mod_eq_of_lt (a := qPart P x D.toNat (i + 1)) (by omega)]
    by_cases g : 2 * (x / 2 ^ (i + 1) % D.toNat) + x / 2 ^ i % 2 < D.toNat
    · simp [g]
    · simp only [g, decide_false, if_false, Bool.false_eq_true]
      rw [BitVec.toNat_twoPow, Nat.mod_eq_of_lt hi2]
      obtain ⟨t, ht⟩ := qPart_dvd (P := P) (x := x) (D := D.toNat) (show i + 1 ≤ P by omega)
      rw [ht]
      exact (Nat.two_pow_add_eq_or_of_lt (by rw [hp]; have := Nat.pow_pos (n := i) (show 0 < 2 by decide); omega) t).symm

end Simdpp
