import Verif.Spec.Fp
import Mathlib.Tactic.Linarith
import Mathlib.Tactic.Ring

/-!
# Lemmas about the floating-point specification
-/

namespace Simdpp.Spec.Fp
open Flt

variable {w : Nat}

/-- The two widths. -/
def FW (w : Nat) : Prop := w = 32 ∨ w = 64

theorem fw32 : FW 32 := Or.inl rfl
theorem fw64 : FW 64 := Or.inr rfl

theorem mag_lt (hw : FW w) (x : BitVec w) : mag x < 2 ^ (w - 1) := Nat.mod_lt _ (by positivity)

theorem infBits_lt (hw : FW w) : infBits w < 2 ^ (w - 1) := by rcases hw with e | e <;> subst e <;> decide

theorem toNat_split (hw : FW w) (x : BitVec w) : x.toNat = mag x + (if x.msb then 2 ^ (w - 1) else 0) := by
  have h := x.isLt
  have h2 : 2 ^ w = 2 ^ (w - 1) + 2 ^ (w - 1) := by rcases hw with e | e <;> subst e <;> decide
  have hm : x.msb = decide (2 ^ (w - 1) ≤ x.toNat) := by rw [BitVec.msb_eq_decide]
  unfold mag
  by_cases hb : 2 ^ (w - 1) ≤ x.toNat
  · rw [hm, decide_eq_true hb, if_pos rfl]
    have := Nat.mod_eq_sub_mod hb
    rw [Nat.mod_eq_of_lt (show x.toNat - 2 ^ (w - 1) < 2 ^ (w - 1) by omega)] at this
    omega
  · rw [hm, decide_eq_false hb, if_neg (by simp), Nat.mod_eq_of_lt (by omega), Nat.add_zero]

/-- A pattern is its sign and its magnitude. -/
theorem ext_sm (hw : FW w) {x y : BitVec w} (hs : x.msb = y.msb) (hm : mag x = mag y) : x = y := by
  apply BitVec.eq_of_toNat_eq
  rw [toNat_split hw, toNat_split hw, hs, hm]

theorem mk_toNat (hw : FW w) {s : Bool} {M : Nat} (h : M < 2 ^ (w - 1)) :
    (mk w s M).toNat = M + if s then 2 ^ (w - 1) else 0 := by
  have h2 : 2 ^ w = 2 ^ (w - 1) + 2 ^ (w - 1) := by rcases hw with e | e <;> subst e <;> decide
  unfold mk
  rw [BitVec.toNat_ofNat, Nat.mod_eq_of_lt]
  split_ifs <;> omega

theorem mk_mag (hw : FW w) {s : Bool} {M : Nat} (h : M < 2 ^ (w - 1)) : mag (mk w s M) = M := by
  unfold mag
  rw [mk_toNat hw h]
  split_ifs
  · rw [Nat.add_mod_right, Nat.mod_eq_of_lt h]
  · rw [Nat.add_zero, Nat.mod_eq_of_lt h]

theorem mk_msb (hw : FW w) {s : Bool} {M : Nat} (h : M < 2 ^ (w - 1)) : (mk w s M).msb = s := by
  rw [BitVec.msb_eq_decide, mk_toNat hw h]
  cases s
  · simp; exact h
  · simp

theorem mk_self (hw : FW w) (x : BitVec w) : mk w x.msb (mag x) = x :=
  ext_sm hw (mk_msb hw (mag_lt hw x)) (mk_mag hw (mag_lt hw x))

/-! ### the value of a magnitude -/

theorem numMag_low {M : Nat} (h : M < 2 ^ (prec w - 1)) : numMag w M = M := by
  unfold numMag
  rw [Nat.div_eq_of_lt h, Nat.mod_eq_of_lt h]
  exact if_pos rfl

theorem numMag_high {q f : Nat} (hf : f < 2 ^ (prec w - 1)) :
    numMag w ((q + 1) * 2 ^ (prec w - 1) + f) = (2 ^ (prec w - 1) + f) * 2 ^ q := by
  unfold numMag
  have hp : 0 < 2 ^ (prec w - 1) := by positivity
  have h1 : ((q + 1) * 2 ^ (prec w - 1) + f) / 2 ^ (prec w - 1) = q + 1 := by
    rw [Nat.add_comm, Nat.add_mul_div_right _ _ hp, Nat.div_eq_of_lt hf, Nat.zero_add]
  have h2 : ((q + 1) * 2 ^ (prec w - 1) + f) % 2 ^ (prec w - 1) = f := by
    rw [Nat.add_comm, Nat.add_mul_mod_self_right, Nat.mod_eq_of_lt hf]
  simp only [h1, h2]
  rw [if_neg (by omega), Nat.add_sub_cancel]

/-- Every magnitude is a low one or has an exponent. -/
theorem mag_cases (w M : Nat) : M < 2 ^ (prec w - 1) ∨ ∃ q f, f < 2 ^ (prec w - 1) ∧ M = (q + 1) * 2 ^ (prec w - 1) + f := by
  by_cases h : M < 2 ^ (prec w - 1)
  · exact .inl h
  · right
    have hp : 0 < 2 ^ (prec w - 1) := by positivity
    have := Nat.div_add_mod M (2 ^ (prec w - 1))
    have h1 : 1 ≤ M / 2 ^ (prec w - 1) := (Nat.one_le_div_iff hp).2 (by omega)
    refine ⟨M / 2 ^ (prec w - 1) - 1, M % 2 ^ (prec w - 1), Nat.mod_lt _ hp, ?_⟩
    rw [Nat.sub_add_cancel h1, Nat.mul_comm]
    exact this.symm

theorem numMag_succ (w M : Nat) : numMag w M < numMag w (M + 1) := by
  have hp : 0 < 2 ^ (prec w - 1) := by positivity
  rcases mag_cases w M with h | ⟨q, f, hf, rfl⟩
  · rw [numMag_low h]
    by_cases h2 : M + 1 < 2 ^ (prec w - 1)
    · rw [numMag_low h2]; omega
    · have e : M + 1 = (0 + 1) * 2 ^ (prec w - 1) + 0 := by omega
      rw [e, numMag_high hp]; omega
  · rw [numMag_high hf]
    by_cases h2 : f + 1 < 2 ^ (prec w - 1)
    · rw [Nat.add_assoc, numMag_high h2]
      exact Nat.mul_lt_mul_of_pos_right (by omega) (by positivity)
    · have e : (q + 1) * 2 ^ (prec w - 1) + f + 1 = (q + 1 + 1) * 2 ^ (prec w - 1) + 0 := by
        rw [Nat.add_mul (q + 1) 1]; omega
      rw [e, numMag_high hp, pow_succ]
      have : 0 < 2 ^ q := by positivity
      nlinarith

theorem numMag_lt {M N : Nat} (h : M < N) : numMag w M < numMag w N := by
  induction N with
  | zero => omega
  | succ N ih =>
    rcases Nat.lt_succ_iff_lt_or_eq.1 h with h | h
    · exact (ih h).trans (numMag_succ w N)
    · subst h; exact numMag_succ w M

theorem numMag_lt_iff {M N : Nat} : numMag w M < numMag w N ↔ M < N := by
  refine ⟨fun h => ?_, numMag_lt⟩
  by_contra hn
  rcases Nat.lt_or_eq_of_le (Nat.le_of_not_lt hn) with h1 | h1
  · exact absurd (numMag_lt (w := w) h1) (by omega)
  · subst h1; omega

theorem numMag_inj {M N : Nat} (h : numMag w M = numMag w N) : M = N := by
  rcases Nat.lt_trichotomy M N with h1 | h1 | h1
  · exact absurd (numMag_lt (w := w) h1) (by omega)
  · exact h1
  · exact absurd (numMag_lt (w := w) h1) (by omega)

theorem numMag_zero : numMag w 0 = 0 := numMag_low (by positivity)

theorem numMag_pos {M : Nat} : 0 < numMag w M ↔ 0 < M := by
  have := numMag_lt_iff (w := w) (M := 0) (N := M)
  rwa [numMag_zero] at this

/-! ### rounding -/

theorem len_eq {m L : Nat} (h1 : 2 ^ L ≤ m) (h2 : m < 2 ^ (L + 1)) : len m = L + 1 := by
  have hm : m ≠ 0 := by have : 0 < 2 ^ L := by positivity
                        omega
  unfold len
  rw [if_neg hm, (Nat.log2_eq_iff hm).2 ⟨h1, h2⟩]

theorem len_le {m L : Nat} (h : m < 2 ^ L) : len m ≤ L := by
  unfold len
  split_ifs with h0
  · omega
  · exact (Nat.log2_lt h0).2 h

theorem lt_len (m : Nat) : m < 2 ^ len m := by
  unfold len
  split_ifs with h0
  · subst h0; decide
  · exact Nat.lt_log2_self

theorem len_ge {m : Nat} (h : m ≠ 0) : 2 ^ (len m - 1) ≤ m := by
  unfold len
  rw [if_neg h, Nat.add_sub_cancel]
  exact Nat.log2_self_le h

theorem rne_exact (s q : Nat) : rne (s * 2 ^ q) q = s := by
  have hp : 0 < 2 ^ q := by positivity
  unfold rne
  rw [Nat.mul_div_cancel _ hp, Nat.mul_mod_left]
  exact if_pos (.inl (by omega))

theorem prec_pos (w : Nat) : prec w - 1 + 1 = prec w := by unfold prec; split_ifs <;> rfl

/-- Rounding a number that is already there. -/
theorem rndMag_numMag {M : Nat} (h : M < infBits w) : rndMag w 0 (numMag w M) = M := by
  unfold rndMag
  simp only [Nat.max_zero, Nat.sub_zero]
  rcases mag_cases w M with h1 | ⟨q, f, hf, rfl⟩
  · rw [numMag_low h1]
    have := len_le h1
    have h2 := prec_pos w
    rw [show len M - prec w = 0 by omega]
    have := rne_exact M 0
    rw [pow_zero, Nat.mul_one] at this
    rw [this]
    omega
  · rw [numMag_high hf]
    have hl : len ((2 ^ (prec w - 1) + f) * 2 ^ q) = prec w - 1 + q + 1 := by
      apply len_eq
      · rw [pow_add]; exact Nat.mul_le_mul_right _ (by omega)
      · rw [show prec w - 1 + q + 1 = (prec w - 1 + 1) + q by omega, pow_add]
        refine Nat.mul_lt_mul_of_pos_right ?_ (by positivity)
        rw [pow_succ]; omega
    have h2 := prec_pos w
    rw [hl, show prec w - 1 + q + 1 - prec w = q by omega, rne_exact]
    have e : q * 2 ^ (prec w - 1) + (2 ^ (prec w - 1) + f) = (q + 1) * 2 ^ (prec w - 1) + f := by ring
    rw [e]; omega

/-- A number with few enough digits is there. -/
theorem exists_mag {s q : Nat} (h : s < 2 ^ prec w) : ∃ M, numMag w M = s * 2 ^ q := by
  have h2 := prec_pos w
  by_cases hlow : s * 2 ^ q < 2 ^ (prec w - 1)
  · exact ⟨_, numMag_low hlow⟩
  · have hs0 : s ≠ 0 := by
      rintro rfl
      rw [Nat.zero_mul] at hlow
      exact hlow (by positivity)
    have hl := lt_len s
    have hg := len_ge hs0
    have hle := len_le h
    have hL : 1 ≤ len s := by unfold len; rw [if_neg hs0]; omega
    have hq : prec w ≤ q + len s := by
      by_contra hn
      apply hlow
      calc s * 2 ^ q < 2 ^ len s * 2 ^ q := Nat.mul_lt_mul_of_pos_right hl (by positivity)
        _ = 2 ^ (len s + q) := (pow_add 2 _ _).symm
        _ ≤ 2 ^ (prec w - 1) := Nat.pow_le_pow_right (by omega) (by omega)
    obtain ⟨d, hd⟩ : ∃ d, prec w = len s + d := ⟨prec w - len s, by omega⟩
    obtain ⟨e, he⟩ : ∃ e, q = e + d := ⟨q - d, by omega⟩
    have h3 : 2 ^ (prec w - 1) ≤ s * 2 ^ d := by
      calc 2 ^ (prec w - 1) = 2 ^ (len s - 1) * 2 ^ d := by rw [← pow_add]; congr 1; omega
        _ ≤ s * 2 ^ d := Nat.mul_le_mul_right _ hg
    have h4 : s * 2 ^ d < 2 ^ (prec w - 1) + 2 ^ (prec w - 1) := by
      calc s * 2 ^ d < 2 ^ len s * 2 ^ d := Nat.mul_lt_mul_of_pos_right hl (by positivity)
        _ = 2 ^ (prec w - 1 + 1) := by rw [← pow_add]; congr 1; omega
        _ = 2 ^ (prec w - 1) + 2 ^ (prec w - 1) := by rw [pow_succ]; omega
    refine ⟨(e + 1) * 2 ^ (prec w - 1) + (s * 2 ^ d - 2 ^ (prec w - 1)), ?_⟩
    rw [numMag_high (by omega), Nat.add_sub_cancel' h3, he, Nat.mul_assoc, ← pow_add, Nat.add_comm d e]

/-- Rounding is exact on numbers with few digits below the overflow threshold. -/
theorem rndMag_exact {s q : Nat} (h : s < 2 ^ prec w) (hb : s * 2 ^ q < numMag w (infBits w)) :
    rndMag w 0 (s * 2 ^ q) < infBits w ∧ numMag w (rndMag w 0 (s * 2 ^ q)) = s * 2 ^ q := by
  obtain ⟨M, hM⟩ := exists_mag (w := w) (q := q) h
  have hlt : M < infBits w := numMag_lt_iff.1 (hM ▸ hb)
  rw [← hM, rndMag_numMag hlt]
  exact ⟨hlt, rfl⟩

theorem rndMag_le (k m : Nat) : rndMag w k m ≤ infBits w := Nat.min_le_left _ _

theorem prec32 : prec 32 = 24 := rfl
theorem prec64 : prec 64 = 53 := rfl

theorem numMag_inf32 : numMag 32 (infBits 32) = 2 ^ 277 := by
  have e : infBits 32 = (254 + 1) * 2 ^ (prec 32 - 1) + 0 := by decide
  rw [e, numMag_high (by positivity), prec32, Nat.add_zero, ← pow_add]

theorem numMag_inf64 : numMag 64 (infBits 64) = 2 ^ 2098 := by
  have e : infBits 64 = (2046 + 1) * 2 ^ (prec 64 - 1) + 0 := by decide
  rw [e, numMag_high (by positivity), prec64, Nat.add_zero, ← pow_add]

/-! ### values -/

theorem num_mk (hw : FW w) {s : Bool} {M : Nat} (h : M < 2 ^ (w - 1)) :
    num (mk w s M) = if s then -(numMag w M : Int) else numMag w M := by
  unfold num
  rw [mk_msb hw h, mk_mag hw h]

theorem num_natAbs (x : BitVec w) : (num x).natAbs = numMag w (mag x) := by
  unfold num; split_ifs <;> simp

theorem num_nonneg_of {x : BitVec w} (h : x.msb = false) : 0 ≤ num x := by
  unfold num; rw [if_neg (by simp [h])]; exact Int.natCast_nonneg _

theorem num_nonpos_of {x : BitVec w} (h : x.msb = true) : num x ≤ 0 := by
  unfold num; rw [if_pos h]; have := Int.natCast_nonneg (numMag w (mag x)); omega

theorem num_eq_zero {x : BitVec w} : num x = 0 ↔ mag x = 0 := by
  have h := num_natAbs x
  have hp := numMag_pos (w := w) (M := mag x)
  constructor
  · intro h0; rw [h0] at h; simp at h; omega
  · intro h0; rw [h0, numMag_zero] at h; omega

/-- The order of the patterns is the order of the values. -/
theorem key_lt_iff {x y : BitVec w} : key x < key y ↔ num x < num y := by
  unfold key num
  have h := numMag_lt_iff (w := w) (M := mag x) (N := mag y)
  have h' := numMag_lt_iff (w := w) (M := mag y) (N := mag x)
  have px := numMag_pos (w := w) (M := mag x)
  have py := numMag_pos (w := w) (M := mag y)
  split_ifs <;> omega

theorem key_eq_iff {x y : BitVec w} : key x = key y ↔ num x = num y := by
  have h := key_lt_iff (x := x) (y := y)
  have h' := key_lt_iff (x := y) (y := x)
  omega

theorem key_le_iff {x y : BitVec w} : key x ≤ key y ↔ num x ≤ num y := by
  have h' := key_lt_iff (x := y) (y := x)
  omega

/-- Rounding a value that is there, and not zero, gives the number. -/
theorem round_num (hw : FW w) {x : BitVec w} (hf : isFinite x) (h0 : num x ≠ 0) : round w 0 (num x) = x := by
  unfold round
  have hm : mag x < infBits w := by simpa [isFinite] using hf
  rw [num_natAbs, rndMag_numMag hm]
  have hs : decide (num x < 0) = x.msb := by
    cases h : x.msb
    · have := num_nonneg_of h; simp; omega
    · have := num_nonpos_of h; simp; omega
  rw [hs, mk_self hw]

/-- The value of a rounded integer with few digits. -/
theorem num_round (hw : FW w) {z : Int} {s q : Nat} (hz : z.natAbs = s * 2 ^ q) (h : s < 2 ^ prec w)
    (hb : s * 2 ^ q < numMag w (infBits w)) : num (round w 0 z) = z ∧ isFinite (round w 0 z) := by
  obtain ⟨h1, h2⟩ := rndMag_exact h hb
  have hi := infBits_lt hw
  unfold round
  rw [hz]
  refine ⟨?_, ?_⟩
  · rw [num_mk hw (by omega), h2, ← hz]
    by_cases hn : z < 0
    · rw [decide_eq_true hn, if_pos rfl]; omega
    · rw [decide_eq_false hn, if_neg (by simp)]; omega
  · unfold isFinite
    rw [mk_mag hw (by omega)]
    exact decide_eq_true h1

theorem finite_or (x : BitVec w) : isNaN x = true ∨ isInf x = true ∨ isFinite x = true := by
  unfold isNaN isInf isFinite
  rcases Nat.lt_trichotomy (mag x) (infBits w) with h | h | h
  · exact .inr (.inr (decide_eq_true h))
  · exact .inr (.inl (decide_eq_true h))
  · exact .inl (decide_eq_true h)

theorem not_nan_of_finite {x : BitVec w} (h : isFinite x = true) : isNaN x = false ∧ isInf x = false := by
  unfold isNaN isInf
  have : mag x < infBits w := by simpa [isFinite] using h
  exact ⟨decide_eq_false (by omega), decide_eq_false (by omega)⟩

theorem ofNat_msb (hw : FW w) : BitVec.ofNat w (2 ^ (w - 1)) = mk w true 0 := by
  unfold mk; rw [Nat.zero_add, if_pos rfl]

theorem neg_msb (hw : FW w) (x : BitVec w) : (neg x).msb = !x.msb := by
  unfold neg
  rw [BitVec.msb_xor, ofNat_msb hw, mk_msb hw (by positivity)]
  cases x.msb <;> rfl

theorem neg_mag (hw : FW w) (x : BitVec w) : mag (neg x) = mag x := by
  unfold mag neg
  rw [BitVec.toNat_xor]
  apply Nat.eq_of_testBit_eq
  intro i
  rw [Nat.testBit_mod_two_pow, Nat.testBit_mod_two_pow, Nat.testBit_xor]
  by_cases hi : i < w - 1
  · rw [BitVec.toNat_ofNat, Nat.testBit_mod_two_pow, Nat.testBit_two_pow_of_ne (by omega)]
    simp
  · simp [hi]

theorem num_neg (hw : FW w) (x : BitVec w) : num (neg x) = -num x := by
  unfold num
  rw [neg_msb hw, neg_mag hw]
  cases x.msb <;> simp

theorem neg_neg' (hw : FW w) (x : BitVec w) : neg (neg x) = x :=
  ext_sm hw (by rw [neg_msb hw, neg_msb hw, Bool.not_not]) (by rw [neg_mag hw, neg_mag hw])

theorem neg_class (hw : FW w) (x : BitVec w) : isNaN (neg x) = isNaN x ∧ isInf (neg x) = isInf x ∧ isFinite (neg x) = isFinite x := by
  unfold isNaN isInf isFinite
  rw [neg_mag hw]; exact ⟨rfl, rfl, rfl⟩

theorem nan_isNaN (hw : FW w) : isNaN (nan w) = true := by
  rcases hw with e | e <;> subst e <;> decide

/-- Exact addition. -/
theorem num_add (hw : FW w) {x y : BitVec w} (hx : isFinite x = true) (hy : isFinite y = true) {s q : Nat}
    (hz : (num x + num y).natAbs = s * 2 ^ q) (h : s < 2 ^ prec w) (hb : s * 2 ^ q < numMag w (infBits w)) :
    num (add x y) = num x + num y ∧ isFinite (add x y) = true := by
  obtain ⟨nx, ix⟩ := not_nan_of_finite hx
  obtain ⟨ny, iy⟩ := not_nan_of_finite hy
  unfold add
  simp only [nx, ny, ix, iy, Bool.or_self, Bool.false_eq_true, if_false]
  by_cases h0 : num x + num y = 0
  · rw [if_pos h0, h0]
    have h1 : 0 < 2 ^ (w - 1) := by positivity
    refine ⟨?_, ?_⟩
    · rw [num_mk hw h1, numMag_zero]; simp
    · unfold isFinite; rw [mk_mag hw h1]; rcases hw with e | e <;> subst e <;> decide
  · rw [if_neg h0]
    exact num_round hw hz h hb

end Simdpp.Spec.Fp
