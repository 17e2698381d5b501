import Verif.Props.FpLemmas
import Mathlib.Data.Nat.ModEq

/-!
# Rounding to nearest even

`Fp.round` is a closed formula. Here it is shown to be what IEEE 754 asks for: no number of the format is nearer, a tie goes to the
even significand, and the result is infinite exactly from the midpoint above the greatest number on. Conversions and sums
in the specification are `round` of an exact integer, so this pins them down completely.
-/

namespace Simdpp.Spec.Fp
open Flt

variable {w : Nat}

/-- The value of a magnitude put together from an exponent and a significand. -/
theorem numMag_grid {e d : Nat} (h : d ≤ 2 ^ prec w) (h2 : e = 0 ∨ 2 ^ (prec w - 1) ≤ d) :
    numMag w (e * 2 ^ (prec w - 1) + d) = d * 2 ^ e := by
  have hp : 2 ^ prec w = 2 ^ (prec w - 1) + 2 ^ (prec w - 1) := by rw [← prec_pos w, pow_succ]; simp; omega
  have hpos : 0 < 2 ^ (prec w - 1) := by positivity
  by_cases h0 : d < 2 ^ (prec w - 1)
  · rcases h2 with rfl | h2
    · rw [Nat.zero_mul, Nat.zero_add, numMag_low h0, pow_zero, Nat.mul_one]
    · omega
  · by_cases h1 : d = 2 ^ prec w
    · rw [show e * 2 ^ (prec w - 1) + d = (e + 1 + 1) * 2 ^ (prec w - 1) + 0 by rw [h1, hp]; ring, numMag_high hpos, h1, hp, pow_succ]
      ring
    · obtain ⟨f, rfl⟩ : ∃ f, d = 2 ^ (prec w - 1) + f := ⟨d - 2 ^ (prec w - 1), by omega⟩
      rw [show e * 2 ^ (prec w - 1) + (2 ^ (prec w - 1) + f) = (e + 1) * 2 ^ (prec w - 1) + f by ring, numMag_high (by omega)]

/-- `rne` is a nearest integer, ties to even. -/
theorem rne_near (m q d' : Nat) : |(rne m q : Int) * 2 ^ q - m| ≤ |(d' : Int) * 2 ^ q - m| ∧
    (|(rne m q : Int) * 2 ^ q - m| = |(d' : Int) * 2 ^ q - m| → d' = rne m q ∨ rne m q % 2 = 0) ∧
    2 * |(rne m q : Int) * 2 ^ q - m| ≤ 2 ^ q := by
  have hp : 0 < 2 ^ q := by positivity
  have hm := Nat.div_add_mod' m (2 ^ q)
  have hr := Nat.mod_lt m hp
  have e : ((2 : Int) ^ q) = ((2 ^ q : Nat) : Int) := by push_cast; rfl
  rw [e]
  unfold rne
  generalize m / 2 ^ q = d at *
  generalize m % 2 ^ q = t at *
  generalize 2 ^ q = Q at *
  subst hm
  dsimp only
  push_cast
  have key : ((d' : Int) * Q - (d * Q + t) = (d' - d) * Q - t) := by ring
  have key1 : (((d : Int) + 1) * Q - (d * Q + t) = Q - t) := by ring
  have key0 : ((d : Int) * Q - (d * Q + t) = - t) := by ring
  rcases lt_trichotomy d' d with hlt | heq | hgt
  · have h1 : ((d' : Int) - d) * Q ≤ (-1) * Q := Int.mul_le_mul_of_nonneg_right (by omega) (by omega)
    rw [key]
    generalize ((d' : Int) - d) * Q = X at *
    split_ifs with hc <;> (try rw [Nat.cast_add, Nat.cast_one]) <;> (try rw [key1]) <;> (try rw [key0]) <;>
      (refine ⟨?_, fun hh => ?_, ?_⟩) <;> first | exact .inl rfl | (simp only [abs_eq_max_neg] at *; omega) | omega
  · subst heq
    split_ifs with hc <;> (try rw [Nat.cast_add, Nat.cast_one]) <;> (try rw [key1]) <;> (try rw [key0]) <;>
      (refine ⟨?_, fun hh => ?_, ?_⟩) <;> first | exact .inl rfl | (simp only [abs_eq_max_neg] at *; omega) | omega
  · by_cases h2 : d' = d + 1
    · subst h2
      clear key
      split_ifs with hc <;> (try rw [Nat.cast_add, Nat.cast_one]) <;> (try rw [key1]) <;> (try rw [key0]) <;>
        (refine ⟨?_, fun hh => ?_, ?_⟩) <;> first | exact .inl rfl | (simp only [abs_eq_max_neg] at *; omega) | omega
    · have h1 : 2 * (Q : Int) ≤ ((d' : Int) - d) * Q := Int.mul_le_mul_of_nonneg_right (by omega) (by omega)
      rw [key]
      generalize ((d' : Int) - d) * Q = X at *
      split_ifs with hc <;> (try rw [Nat.cast_add, Nat.cast_one]) <;> (try rw [key1]) <;> (try rw [key0]) <;>
        (refine ⟨?_, fun hh => ?_, ?_⟩) <;> first | exact .inl rfl | (simp only [abs_eq_max_neg] at *; omega) | omega

/-- The significand and exponent that rounding chooses. -/
theorem rnd_bounds (w k m : Nat) : rne m (max (len m - prec w) k) ≤ 2 ^ prec w ∧
    (k < max (len m - prec w) k → 2 ^ (prec w - 1) * 2 ^ (max (len m - prec w) k) ≤ m ∧
      2 ^ (prec w - 1) ≤ rne m (max (len m - prec w) k)) := by
  set q := max (len m - prec w) k with hq
  have hp := prec_pos w
  have hup : m < 2 ^ prec w * 2 ^ q := by
    calc m < 2 ^ len m := lt_len m
      _ ≤ 2 ^ (prec w + q) := Nat.pow_le_pow_right (by decide) (by omega)
      _ = _ := pow_add _ _ _
  have hd : m / 2 ^ q < 2 ^ prec w := Nat.div_lt_of_lt_mul (by rw [Nat.mul_comm]; exact hup)
  refine ⟨?_, fun hk => ?_⟩
  · unfold rne; dsimp only; split_ifs <;> omega
  · have hl : len m = prec w + q := by omega
    have hm0 : m ≠ 0 := by rintro rfl; simp [len] at hl; omega
    have hlow : 2 ^ (prec w - 1) * 2 ^ q ≤ m := by
      have := len_ge hm0
      rwa [hl, show prec w + q - 1 = prec w - 1 + q by omega, pow_add] at this
    refine ⟨hlow, ?_⟩
    have : 2 ^ (prec w - 1) ≤ m / 2 ^ q := (Nat.le_div_iff_mul_le (by positivity)).2 hlow
    unfold rne; dsimp only; split_ifs <;> omega

/-- No magnitude is nearer than the one chosen. -/
theorem mag_near (w k m M' : Nat) :
    |(rne m (max (len m - prec w) k) : Int) * 2 ^ (max (len m - prec w) k) - m| ≤ |(numMag w M' : Int) * 2 ^ k - m| ∧
    (|(rne m (max (len m - prec w) k) : Int) * 2 ^ (max (len m - prec w) k) - m| = |(numMag w M' : Int) * 2 ^ k - m| →
      (numMag w M' : Int) * 2 ^ k = (rne m (max (len m - prec w) k) : Int) * 2 ^ (max (len m - prec w) k) ∨
      rne m (max (len m - prec w) k) % 2 = 0) := by
  obtain ⟨hb1, hb2⟩ := rnd_bounds w k m
  have hqk : k ≤ max (len m - prec w) k := le_max_right _ _
  generalize max (len m - prec w) k = q at *
  have hp := prec_pos w
  -- a value on the grid
  have grid : ∀ Y d' : Nat, Y * 2 ^ k = d' * 2 ^ q →
      |(rne m q : Int) * 2 ^ q - m| ≤ |(Y : Int) * 2 ^ k - m| ∧
      (|(rne m q : Int) * 2 ^ q - m| = |(Y : Int) * 2 ^ k - m| →
        (Y : Int) * 2 ^ k = (rne m q : Int) * 2 ^ q ∨ rne m q % 2 = 0) := by
    intro Y d' e
    have e' : (Y : Int) * 2 ^ k = (d' : Int) * 2 ^ q := by exact_mod_cast e
    rw [e']
    obtain ⟨h1, h2, -⟩ := rne_near m q d'
    refine ⟨h1, fun h => ?_⟩
    rcases h2 h with h | h
    · exact .inl (by rw [h])
    · exact .inr h
  by_cases hk : k = q
  · exact grid _ (numMag w M') (by rw [hk])
  · obtain ⟨hm, -⟩ := hb2 (by omega)
    -- a value below the grid of `m`
    have below : numMag w M' * 2 ^ k < 2 ^ (prec w - 1) * 2 ^ q →
      |(rne m q : Int) * 2 ^ q - m| ≤ |(numMag w M' : Int) * 2 ^ k - m| ∧
      (|(rne m q : Int) * 2 ^ q - m| = |(numMag w M' : Int) * 2 ^ k - m| →
        (numMag w M' : Int) * 2 ^ k = (rne m q : Int) * 2 ^ q ∨ rne m q % 2 = 0) := by
      intro hlt
      obtain ⟨h1, -, -⟩ := rne_near m q (2 ^ (prec w - 1))
      have hlt' : (numMag w M' : Int) * 2 ^ k < ((2 ^ (prec w - 1) : Nat) : Int) * 2 ^ q := by exact_mod_cast hlt
      have hm' : ((2 ^ (prec w - 1) : Nat) : Int) * 2 ^ q ≤ m := by exact_mod_cast hm
      generalize (rne m q : Int) * 2 ^ q = A at *
      generalize ((2 ^ (prec w - 1) : Nat) : Int) * 2 ^ q = B at *
      generalize (numMag w M' : Int) * 2 ^ k = C at *
      simp only [abs_eq_max_neg] at *
      constructor
      · omega
      · intro; omega
    rcases mag_cases w M' with hl | ⟨e, f, hf, rfl⟩
    · apply below
      rw [numMag_low hl]
      calc M' * 2 ^ k < 2 ^ (prec w - 1) * 2 ^ k := Nat.mul_lt_mul_of_pos_right hl (by positivity)
        _ ≤ _ := Nat.mul_le_mul_left _ (Nat.pow_le_pow_right (by decide) hqk)
    · by_cases he : q ≤ e + k
      · apply grid _ ((2 ^ (prec w - 1) + f) * 2 ^ (e + k - q))
        rw [numMag_high hf, Nat.mul_assoc, Nat.mul_assoc, ← pow_add, ← pow_add]
        congr 2; omega
      · apply below
        rw [numMag_high hf, Nat.mul_assoc, ← pow_add]
        calc (2 ^ (prec w - 1) + f) * 2 ^ (e + k) < 2 ^ prec w * 2 ^ (e + k) :=
              Nat.mul_lt_mul_of_pos_right (by rw [← hp, pow_succ]; simp; omega) (by positivity)
          _ ≤ 2 ^ prec w * 2 ^ (q - 1) := Nat.mul_le_mul_left _ (Nat.pow_le_pow_right (by decide) (by omega))
          _ = 2 ^ (prec w - 1) * 2 ^ q := by rw [← pow_add, ← pow_add]; congr 1; omega

/-- The value of the magnitude chosen, when it does not overflow. -/
theorem numMag_rndMag (w k m : Nat) :
    rndMag w k m = min (infBits w) ((max (len m - prec w) k - k) * 2 ^ (prec w - 1) + rne m (max (len m - prec w) k)) ∧
    numMag w ((max (len m - prec w) k - k) * 2 ^ (prec w - 1) + rne m (max (len m - prec w) k)) * 2 ^ k =
      rne m (max (len m - prec w) k) * 2 ^ (max (len m - prec w) k) := by
  obtain ⟨hb1, hb2⟩ := rnd_bounds w k m
  have hqk : k ≤ max (len m - prec w) k := le_max_right _ _
  refine ⟨rfl, ?_⟩
  generalize max (len m - prec w) k = q at *
  rw [numMag_grid hb1 (by
    by_cases h : q = k
    · exact .inl (by omega)
    · exact .inr (hb2 (by omega)).2), Nat.mul_assoc, ← pow_add, Nat.sub_add_cancel hqk]

end Simdpp.Spec.Fp
