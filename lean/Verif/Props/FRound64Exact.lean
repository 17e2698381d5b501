import Verif.Props.FRound64
import Verif.Props.FMul

/-!
# C34: where the emulated rounding is right

On SSE2 to SSSE3 and on MSA the `double` roundings are emulated. The theorems here say exactly on which numbers the emulations are
right, and likewise for the `float` emulations.
-/

namespace Simdpp
open Spec Spec.Flt Spec.Fp Sh

variable {n : Nat}

theorem sub_neg_one_eq (x : BitVec 64) : Fp.sub x 0xbff0000000000000#64 = Fp.add x 0x3ff0000000000000#64 := by
  unfold Fp.sub
  congr 1

theorem sub_zero_eq (x : BitVec 64) : Fp.sub x 0 = Fp.add x 0x8000000000000000#64 := by
  unfold Fp.sub
  congr 1

theorem zero_add_one : Fp.add (0 : BitVec 64) 0x3ff0000000000000#64 = 0x3ff0000000000000#64 := by decide +kernel

/-- The 51 numbers one unit in the last place above `2 ^ (e + 1) - 1`: adding one to them is a tie, which rounds to `2 ^ (e + 1)`. -/
theorem lucky_tab : ∀ e : Fin 51, Fp.add (BitVec.ofNat 64 ((1023 + e.val) * 2 ^ 52 + (2 ^ 52 - 2 ^ (52 - e.val) + 1))) 0x3ff0000000000000#64 =
    BitVec.ofNat 64 ((1024 + e.val) * 2 ^ 52) := by
  decide +kernel

attribute [local irreducible] Fp.add Fp.sub

theorem IsRnd.dvd {w : Nat} {f : BitVec w → Int} {x r : BitVec w} (hx : isFinite x = true) (h : IsRnd f x r) : (2 ^ unit w : Int) ∣ num r :=
  ⟨f x, by rw [(h.1 hx).2, Int.mul_comm]⟩

/-- A number that is not integral is not its own rounding. -/
theorem not_rnd_self {f : BitVec 64 → Int} {x r : BitVec 64} (hi : ¬ Fp.Integral x) (hr : num r = num x) : ¬ IsRnd f x r := by
  intro h
  apply hi
  intro hx
  have := IsRnd.dvd hx h
  rwa [hr] at this

theorem not_integral {x : BitVec 64} (h : ¬ Fp.Integral x) : isFinite x = true ∧ ¬ (2 ^ unit 64 : Int) ∣ num x := by
  unfold Fp.Integral at h
  exact Classical.not_imp.1 h

/-- The fraction bits of a number that is not integral are a positive number. -/
theorem low_pos {x : BitVec 64} (hi : ¬ Fp.Integral x) (h1 : 0x3ff0000000000000 ≤ mag x) (h2 : mag x < 0x4330000000000000) :
    Flt.fgt (x &&& cbLane 0xfff0000000000000#64 x) 0 = true := by
  obtain ⟨e, f, he, hf, hm⟩ := mag_split h1 h2
  rw [(cb_eq he hf hm).2]
  have hlow := and_low x (k := 52 - e) (by omega)
  set y := x &&& BitVec.ofNat 64 (2 ^ (52 - e) - 1) with hy
  have d52 : 2 ^ (52 - e) ∣ 2 ^ 52 := Nat.pow_dvd_pow _ (by omega)
  have hp : (2 : Nat) ^ (52 - e) ≤ 2 ^ 52 := Nat.pow_le_pow_right (by decide) (by omega)
  have hlt : y.toNat < 2 ^ 52 := by
    rw [hlow]; exact Nat.lt_of_lt_of_le (Nat.mod_lt _ (by positivity)) hp
  have hne : y.toNat ≠ 0 := by
    intro h0
    rw [hlow, toNat_split fw64 x, hm] at h0
    have hd := Nat.dvd_of_mod_eq_zero h0
    have d63 : 2 ^ (52 - e) ∣ (if x.msb then 2 ^ (64 - 1) else 0) := by
      split_ifs
      · exact Nat.pow_dvd_pow _ (by omega)
      · exact Nat.dvd_zero _
    have hd := (Nat.dvd_add_left d63).1 hd
    have hd := (Nat.dvd_add_right (Nat.dvd_mul_left_of_dvd d52 (1023 + e))).1 hd
    apply (not_integral hi).2
    have e1 : (2 ^ unit 64 : Nat) ∣ (num x).natAbs := by
      rw [num_natAbs, hm, num_one he hf, unit_split he]
      exact Nat.mul_dvd_mul_right (Nat.dvd_add d52 hd) _
    have := Int.natCast_dvd.2 e1
    push_cast at this
    exact this
  have hmsb : y.msb = false := by
    rw [BitVec.msb_eq_decide]; exact decide_eq_false (by norm_num at hlt ⊢; omega)
  have hmag : mag y = y.toNat := by
    have := toNat_split fw64 y
    rw [hmsb] at this
    simp at this
    exact this.symm
  have fy : isFinite y = true := finite_small (by rw [hmag]; norm_num at hlt; omega)
  rw [(neg_iff fy).2, decide_eq_true_iff, num_pos_eq hmsb, hmag]
  exact_mod_cast (numMag_pos (w := 64)).2 (Nat.pos_of_ne_zero hne)

/-- The result at `±4503599627370495.5` and above is the argument. -/
theorem top_not {x : BitVec 64} (h : mag x = 0x432fffffffffffff) : ¬ Fp.Integral x := by
  intro hi
  have hd := integral_dvd (finite_small (by omega)) hi
  rw [h, show (0x432fffffffffffff : Nat) = (1023 + 51) * 2 ^ 52 + (2 ^ 52 - 1) by decide, num_one (by decide) (by decide),
    unit_split (e := 51) (by decide), Nat.mul_dvd_mul_iff_right (by positivity)] at hd
  revert hd; decide

/-! ### trunc -/

theorem trunc64lane_iff (x : BitVec 64) : IsRnd truncInt x (trunc64lane x) ↔ mag x ≠ 0x432fffffffffffff := by
  refine ⟨fun h g => ?_, trunc64lane_spec x⟩
  have e : trunc64lane x = x := by
    unfold trunc64lane
    rw [range64, decide_eq_false (by omega), if_neg (by decide)]
  rw [e] at h
  exact not_rnd_self (top_not g) rfl h

/-! ### floor -/

theorem one_num : num 0x3ff0000000000000#64 = 2 ^ unit 64 := by decide +kernel

/-- Adding one to a number that is not integral never reaches the integer below it. -/
theorem add_one_ge {x : BitVec 64} (fx : isFinite x = true) (hf : isFinite (Fp.add x 0x3ff0000000000000#64) = true) :
    num x ≤ num (Fp.add x 0x3ff0000000000000#64) := by
  have := C50_add_nearest (w := 64) fw64 fx (y := 0x3ff0000000000000#64) (by decide) hf x fx
  rw [one_num] at this
  have hp : (0 : Int) < 2 ^ unit 64 := by positivity
  generalize (2 ^ unit 64 : Int) = u at this hp
  generalize num (Fp.add x 0x3ff0000000000000#64) = r at this ⊢
  rw [show num x - (num x + u) = -u by ring, abs_neg, abs_of_pos hp, abs_le] at this
  omega

theorem floor64lane_iff (x : BitVec 64) : IsRnd floorInt x (floor64lane x) ↔
    mag x ≠ 0x432fffffffffffff ∧ (Fp.Integral x ∨ (mag x < 0x3ff0000000000000 ∧ Flt.flt x 0 = false)) := by
  refine ⟨fun h => ?_, fun h => floor64lane_spec x h.1 h.2⟩
  have ht : mag x ≠ 0x432fffffffffffff := by
    intro g
    have e : floor64lane x = x := by
      unfold floor64lane
      dsimp only
      rw [range64, decide_eq_false (by omega), if_neg (by decide)]
    rw [e] at h
    exact not_rnd_self (top_not g) rfl h
  refine ⟨ht, ?_⟩
  by_contra hc
  push Not at hc
  obtain ⟨hi, hc⟩ := hc
  have fx := (not_integral hi).1
  by_cases hb : 0x4330000000000000 ≤ mag x
  · apply (not_integral hi).2
    have e1 : (2 ^ unit 64 : Nat) ∣ (num x).natAbs := by rw [num_natAbs]; exact above_52 hb
    have := Int.natCast_dvd.2 e1
    push_cast at this
    exact this
  have hr := range64 x
  rw [decide_eq_true (by omega)] at hr
  unfold floor64lane at h
  dsimp only at h
  rw [hr, if_pos rfl, one64] at h
  by_cases g : mag x < 0x3ff0000000000000
  · have hn : Flt.flt x 0 = true := by simpa using hc g
    rw [decide_eq_true g, hn] at h
    simp only [Bool.and_true, Bool.or_true, if_true] at h
    rw [sub_neg_one_eq, zero_add_one] at h
    have h2 := (h.1 fx).2
    rw [one_num] at h2
    have hneg : num x < 0 := by rw [(neg_iff fx).1] at hn; simpa using hn
    have hp : (0 : Int) < 2 ^ unit 64 := by positivity
    have : floorInt x < 0 := by unfold floorInt; exact Int.ediv_lt_of_lt_mul hp (by simpa using hneg)
    have h3 : floorInt x * 2 ^ unit 64 < 0 := Int.mul_neg_of_neg_of_pos this hp
    omega
  · rw [decide_eq_false g, low_pos hi (by omega) (by omega)] at h
    simp only [Bool.true_and, Bool.false_and, Bool.or_false, Bool.false_eq_true, if_false] at h
    by_cases hn : Flt.flt x 0 = true
    · rw [hn, if_pos rfl, sub_neg_one_eq] at h
      obtain ⟨hf, h2⟩ := h.1 fx
      have h3 := add_one_ge fx hf
      rw [h2] at h3
      have hp : (0 : Int) < 2 ^ unit 64 := by positivity
      have h4 : num x / 2 ^ unit 64 * 2 ^ unit 64 ≤ num x := Int.ediv_mul_le _ (by positivity)
      apply (not_integral hi).2
      have : num x = floorInt x * 2 ^ unit 64 := Int.le_antisymm h3 h4
      exact ⟨floorInt x, this.trans (Int.mul_comm _ _)⟩
    · rw [if_neg hn] at h
      have h0 := (add_zero' fw64 fx (y := 0x8000000000000000#64) (by decide) (by decide)).2
      have e0 : Fp.sub x 0 = Fp.add x 0x8000000000000000#64 := sub_zero_eq x
      exact not_rnd_self hi (by rw [e0]; exact h0) h

/-! ### ceil -/

/-- The numbers on which the emulated `ceil` is right by accident: one unit in the last place above `2 ^ (e + 1) - 1`. -/
def Lucky (x : BitVec 64) : Prop := ∃ e, e < 51 ∧ num x = (2 ^ (e + 1) - 1) * 2 ^ unit 64 + 2 ^ (1022 + e)

theorem ceil_hi {x : BitVec 64} : num x ≤ ceilInt x * 2 ^ unit 64 := by
  unfold ceilInt
  have : -num x / 2 ^ unit 64 * 2 ^ unit 64 ≤ -num x := Int.ediv_mul_le _ (by positivity)
  rw [Int.neg_mul]; omega

theorem ceil_arith {u p q cx k : Int} (hu : 0 < u) (hp : 0 < p) (hk0 : 0 < k) (hkb : k < p)
    (ha : (q * p + k) * u - p * u ≤ cx * (p * u)) (hb : cx * (p * u) < (q * p + k) * u) : cx = q := by
  have ha' : q * p + k - p ≤ cx * p := by
    by_contra hc
    push Not at hc
    have := mul_lt_mul_of_pos_right hc hu
    nlinarith
  have hb' : cx * p < q * p + k := by
    by_contra hc
    push Not at hc
    have := mul_le_mul_of_nonneg_right hc hu.le
    nlinarith
  have h1 : cx < q + 1 := by
    by_contra hc
    push Not at hc
    have := mul_le_mul_of_nonneg_right hc hp.le
    nlinarith
  have h2 : q - 1 < cx := by
    by_contra hc
    push Not at hc
    have := mul_le_mul_of_nonneg_right hc hp.le
    nlinarith
  omega

theorem lucky_arith {p q : Nat} {u : Int} (hb : p ≤ 2 ^ 52) (h : q * p = 2 ^ 53) :
    ((q : Int) - 1) * ((p : Nat) * u) + u = ((2 ^ 52 + (2 ^ 52 - p + 1) : Nat) : Int) * u := by
  have h1 : ((2 ^ 52 + (2 ^ 52 - p + 1) : Nat) : Int) = (q : Int) * p - p + 1 := by
    have : (q : Int) * p = ((2 ^ 53 : Nat) : Int) := by exact_mod_cast h
    omega
  rw [h1]; ring

theorem tie_arith {u k : Int} (hu : 0 < u) (hk : 2 ≤ k) : ¬ k * u ≤ u := by
  intro h; nlinarith

theorem cast2 (m : Nat) : ((2 ^ m : Nat) : Int) = 2 ^ m := by push_cast; rfl

/-- The numbers of one binade and the first of the next, in terms of the unit in the last place. -/
theorem binade {e : Nat} (he : e < 52) : ∃ u : Nat, 0 < u ∧ (2 : Int) ^ (1022 + e) = u ∧
    (∀ f, f < 2 ^ 52 → numMag 64 ((1023 + e) * 2 ^ 52 + f) = (2 ^ 52 + f) * u) ∧
    (2 : Int) ^ unit 64 = ((2 ^ (52 - e) : Nat) : Int) * u ∧
    (e < 51 → ∀ f, f < 2 ^ 52 → numMag 64 ((1023 + (e + 1)) * 2 ^ 52 + f) = (2 ^ 52 + f) * (u * 2)) := by
  refine ⟨2 ^ (1022 + e), Nat.pow_pos (by decide), (cast2 _).symm, fun f hf => num_one he hf, ?_, fun h f hf => ?_⟩
  · exact ((cast2 (unit 64)).symm.trans (congrArg Nat.cast (unit_split he))).trans (Nat.cast_mul _ _)
  rw [← Nat.pow_succ]
  exact num_one (e := e + 1) (by omega) hf

/-- Where `x + 1` is not above the binade of `x`: the sum is exact. Otherwise it is within `u` of a number of the next binade. -/
theorem ceil_of {W q u N C k : Int} {p : Int} (hu : 0 < u) (hp : 0 < p) (hW : W = p * u) (hN : N + W = (q * p + k) * u) (hk0 : 0 < k) (hkb : k < p)
    (h1 : N ≤ C * W) (h2 : C * W < N + W) : C = q := by
  subst hW
  refine ceil_arith hu hp hk0 hkb ?_ ?_
  · have : N = (q * p + k) * u - p * u := by omega
    omega
  · omega

/-- Adding one, in floating point, to a positive number that is not integral. -/
theorem add_one_mp {x : BitVec 64} (hi : ¬ Fp.Integral x) (hs : x.msb = false) (h1 : 0x3ff0000000000000 ≤ mag x)
    (h2 : mag x < 0x432fffffffffffff) (h : IsRnd ceilInt x (Fp.add x 0x3ff0000000000000#64)) : Lucky x := by
  obtain ⟨fx, hd⟩ := not_integral hi
  obtain ⟨e, f, he, hf, hm⟩ := mag_split h1 (by omega)
  obtain ⟨u, hu0, hue, hn1, hW, hn3⟩ := binade he
  have hnum : num x = ((2 ^ 52 + f : Nat) : Int) * u := by
    rw [num_pos_eq hs, hm, hn1 f hf, Nat.cast_mul]
  obtain ⟨hfin, hv⟩ := h.1 fx
  have near := C50_add_nearest (w := 64) fw64 fx (y := 0x3ff0000000000000#64) (by decide) hfin
  rw [one_num] at near
  have hC1 := @ceil_hi x
  have hC2 : ceilInt x * 2 ^ unit 64 < num x + 2 ^ unit 64 := by
    unfold ceilInt
    have := Int.lt_ediv_add_one_mul_self (-num x) (show (0 : Int) < 2 ^ unit 64 by positivity)
    rw [Int.add_mul, one_mul] at this
    rw [Int.neg_mul]; linarith
  unfold Lucky
  have hLW : ∀ q : Int, q * 2 ^ unit 64 = q * (((2 ^ (52 - e) : Nat) : Int) * u) := fun q => by rw [hW]
  rw [hW] at near hv hd hC1 hC2
  have hup : (0 : Int) < u := by exact_mod_cast hu0
  have hkp : 0 < (2 : Nat) ^ (52 - e) := Nat.pow_pos (by decide)
  have hkle : (2 : Nat) ^ (52 - e) ≤ 2 ^ 52 := Nat.pow_le_pow_right (by decide) (by omega)
  have he53 : (2 : Nat) ^ (e + 1) * 2 ^ (52 - e) = 2 ^ 53 := by rw [← Nat.pow_add]; congr 1; omega
  by_cases g : f + 2 ^ (52 - e) < 2 ^ 52
  · -- the sum is exact
    exfalso
    have hM : (1023 + e) * 2 ^ 52 + (f + 2 ^ (52 - e)) < 2 ^ (64 - 1) := by norm_num at g ⊢; omega
    have hz : isFinite (mk 64 false ((1023 + e) * 2 ^ 52 + (f + 2 ^ (52 - e)))) = true :=
      finite_small (by rw [mk_mag fw64 hM]; norm_num at g ⊢; omega)
    have hzn : num (mk 64 false ((1023 + e) * 2 ^ 52 + (f + 2 ^ (52 - e)))) = num x + ((2 ^ (52 - e) : Nat) : Int) * u := by
      rw [num_mk fw64 hM, if_neg (by decide), hn1 _ g, hnum, Nat.cast_mul, ← Nat.add_assoc, Nat.cast_add (2 ^ 52 + f), Int.add_mul]
    have := near _ hz
    rw [hzn, Int.sub_self, abs_zero] at this
    have h0 := abs_eq_zero.1 (Int.le_antisymm this (abs_nonneg _))
    apply hd
    refine ⟨ceilInt x - 1, ?_⟩
    rw [hv] at h0
    linarith
  · -- the sum has one more bit before the point
    obtain ⟨k, hkk⟩ : ∃ k, f + 2 ^ (52 - e) = 2 ^ 52 + k := ⟨f + 2 ^ (52 - e) - 2 ^ 52, by omega⟩
    have hkb : k < 2 ^ (52 - e) := by omega
    have hsum : num x + ((2 ^ (52 - e) : Nat) : Int) * u = ((2 ^ 53 + k : Nat) : Int) * u := by
      rw [hnum, ← Int.add_mul, ← Nat.cast_add, show 2 ^ 52 + f + 2 ^ (52 - e) = 2 ^ 53 + k by omega]
    have h53 : ((2 ^ 53 + k : Nat) : Int) = ((2 ^ (e + 1) : Nat) : Int) * ((2 ^ (52 - e) : Nat) : Int) + k := by
      rw [← he53, Nat.cast_add, Nat.cast_mul]
    have hk0 : k ≠ 0 := by
      rintro rfl
      apply hd
      refine ⟨((2 ^ (e + 1) : Nat) : Int) - 1, ?_⟩
      rw [h53] at hsum
      generalize ((2 ^ (52 - e) : Nat) : Int) = p at *
      generalize ((2 ^ (e + 1) : Nat) : Int) = q at *
      have : num x = (q * p + (0 : Nat)) * u - p * u := by linarith
      rw [this, Nat.cast_zero]; ring
    have he51 : e < 51 := by
      by_contra hc
      have : e = 51 := by omega
      subst this
      rw [show 52 - 51 = 1 by decide] at hkk hkb
      omega
    have hM : (1023 + (e + 1)) * 2 ^ 52 + k / 2 < 2 ^ (64 - 1) := by norm_num at hkle ⊢; omega
    have hz : isFinite (mk 64 false ((1023 + (e + 1)) * 2 ^ 52 + k / 2)) = true :=
      finite_small (by rw [mk_mag fw64 hM]; norm_num at hkle ⊢; omega)
    have hzn : num (mk 64 false ((1023 + (e + 1)) * 2 ^ 52 + k / 2)) = ((2 ^ 53 + 2 * (k / 2) : Nat) : Int) * u := by
      rw [num_mk fw64 hM, if_neg (by decide), hn3 he51 _ (by omega), ← Nat.cast_mul,
        show (2 ^ 52 + k / 2) * (u * 2) = (2 ^ 53 + 2 * (k / 2)) * u by ring]
    have hnear := near _ hz
    rw [hzn, hsum, ← Int.sub_mul, abs_mul, abs_of_pos hup] at hnear
    have hdist : |((2 ^ 53 + 2 * (k / 2) : Nat) : Int) - ((2 ^ 53 + k : Nat) : Int)| ≤ 1 := by rw [abs_le]; constructor <;> omega
    have hle : |num (Fp.add x 0x3ff0000000000000#64) - ((2 ^ 53 + k : Nat) : Int) * u| ≤ u :=
      hnear.trans (by
        have := mul_le_mul_of_nonneg_right hdist hup.le
        rwa [one_mul] at this)
    have hceil : ceilInt x = ((2 ^ (e + 1) : Nat) : Int) := by
      refine ceil_of hup (by exact_mod_cast hkp) rfl ?_ (show (0 : Int) < k by omega) (by exact_mod_cast hkb) hC1 hC2
      rw [hsum, h53]
    have hone : k = 1 := by
      by_contra hc
      rw [hv, hceil, h53] at hle
      rw [show ((2 ^ (e + 1) : Nat) : Int) * (((2 ^ (52 - e) : Nat) : Int) * u) - (((2 ^ (e + 1) : Nat) : Int) * ((2 ^ (52 - e) : Nat) : Int) + k) * u =
        -(k * u) by ring, abs_neg, abs_of_nonneg (mul_nonneg (by omega) hup.le)] at hle
      exact tie_arith hup (show (2 : Int) ≤ k by omega) hle
    subst hone
    refine ⟨e, he51, ?_⟩
    rw [hLW, hue,
      ← cast2 (e + 1)]
    rw [h53] at hsum
    generalize ((2 ^ (52 - e) : Nat) : Int) = p at *
    generalize ((2 ^ (e + 1) : Nat) : Int) = q at *
    rw [Nat.cast_one] at hsum
    linarith

theorem next_binade {e : Nat} (he : e < 52) : BitVec.ofNat 64 ((1024 + e) * 2 ^ 52) = mk 64 false ((1023 + (e + 1)) * 2 ^ 52 + 0) := by
  have h1 : (1023 + (e + 1)) * 2 ^ 52 + 0 < 2 ^ (64 - 1) := by omega
  have h2 : (1024 + e) * 2 ^ 52 < 2 ^ 64 := by
    have h3 : 1024 + e < 4096 := by omega
    exact Nat.lt_of_lt_of_eq (Nat.mul_lt_mul_of_pos_right h3 (Nat.pow_pos (by decide))) (by decide)
  apply BitVec.eq_of_toNat_eq
  rw [mk_toNat fw64 h1, BitVec.toNat_ofNat, Nat.mod_eq_of_lt h2, if_neg Bool.false_ne_true, Nat.add_zero, Nat.add_zero]
  rw [show 1024 + e = 1023 + (e + 1) from by omega]

theorem add_one_mpr {x : BitVec 64} (fx : isFinite x = true) (hs : x.msb = false) (hl : Lucky x) :
    IsRnd ceilInt x (Fp.add x 0x3ff0000000000000#64) := by
  obtain ⟨e, he, hL⟩ := hl
  have he' := he
  revert hL
  have hM2 : (1023 + (e + 1)) * 2 ^ 52 + 0 < 2 ^ (64 - 1) := by norm_num; omega
  have hmk := next_binade (Nat.lt_succ_of_lt he)
  have hfin2 : isFinite (mk 64 false ((1023 + (e + 1)) * 2 ^ 52 + 0)) = true := by
    apply finite_small
    rw [mk_mag fw64 hM2]
    omega
  intro hL
  obtain ⟨u, hu0, hue, hn1, hW, hn3⟩ := binade (e := e) (Nat.lt_succ_of_lt he)
  have hb : 2 ^ (52 - e) ≤ 2 ^ 52 := Nat.pow_le_pow_right (by decide) (by omega)
  have hb2 : 2 ^ 2 ≤ 2 ^ (52 - e) := Nat.pow_le_pow_right (by decide) (by omega)
  have he53 : (2 : Nat) ^ (e + 1) * 2 ^ (52 - e) = 2 ^ 53 := by rw [← Nat.pow_add]; congr 1; omega
  have hup : (0 : Int) < u := by exact_mod_cast hu0
  rw [hue,
      ← cast2 (e + 1)] at hL
  have hr := lucky_tab ⟨e, he⟩
  dsimp only at hr
  have hLn : num x = ((2 ^ 52 + (2 ^ 52 - 2 ^ (52 - e) + 1) : Nat) : Int) * u := by
    rw [hL, hW]
    exact lucky_arith hb he53
  have hx : x = BitVec.ofNat 64 ((1023 + e) * 2 ^ 52 + (2 ^ 52 - 2 ^ (52 - e) + 1)) := by
    have hfl : 2 ^ 52 - 2 ^ (52 - e) + 1 < 2 ^ 52 := by omega
    generalize 2 ^ 52 - 2 ^ (52 - e) + 1 = f' at *
    have hn' : numMag 64 (mag x) = numMag 64 ((1023 + e) * 2 ^ 52 + f') := by
      rw [hn1 _ hfl]
      rw [num_pos_eq hs] at hLn
      exact_mod_cast hLn
    have hmag : mag x = (1023 + e) * 2 ^ 52 + f' := by
      rcases Nat.lt_trichotomy (mag x) ((1023 + e) * 2 ^ 52 + f') with g | g | g
      · have := numMag_lt (w := 64) g; rw [hn'] at this; exact absurd this (Nat.lt_irrefl _)
      · exact g
      · have := numMag_lt (w := 64) g; rw [hn'] at this; exact absurd this (Nat.lt_irrefl _)
    have := toNat_split fw64 x
    rw [hs, hmag] at this
    simp only [Bool.false_eq_true, if_false, Nat.add_zero] at this
    rw [← this, BitVec.ofNat_toNat, BitVec.setWidth_eq]
  rw [← hx, hmk] at hr
  refine IsRnd.of_int fx ?_
  rw [hr]
  have hceil : ceilInt x = ((2 ^ (e + 1) : Nat) : Int) := by
    unfold ceilInt
    rw [hL, hW]
    have h4 : (4 : Int) ≤ ((2 ^ (52 - e) : Nat) : Int) := by exact_mod_cast hb2
    generalize ((2 ^ (52 - e) : Nat) : Int) = p at *
    generalize ((2 ^ (e + 1) : Nat) : Int) = q at *
    have hp : (u : Int) < p * u := by nlinarith
    have : -((q - 1) * (p * u) + (u : Int)) = (p * u - u) + (-q) * (p * u) := by ring
    generalize p * (u : Int) = W at *
    rw [this, Int.add_mul_ediv_right _ _ (by omega), Int.ediv_eq_zero_of_lt (by omega) (by omega)]
    ring
  refine ⟨hfin2, ?_⟩
  rw [num_mk fw64 hM2, if_neg (by decide), hn3 he 0 (by decide), hceil, hW, ← mul_assoc (_ : Int), ← Nat.cast_mul (2 ^ (e + 1)), he53,
    show (2 ^ 52 + 0) * (u * 2) = 2 ^ 53 * u by ring, Nat.cast_mul]

theorem add_one_iff {x : BitVec 64} (hi : ¬ Fp.Integral x) (hs : x.msb = false) (h1 : 0x3ff0000000000000 ≤ mag x)
    (h2 : mag x < 0x432fffffffffffff) : IsRnd ceilInt x (Fp.add x 0x3ff0000000000000#64) ↔ Lucky x :=
  ⟨add_one_mp hi hs h1 h2, add_one_mpr (not_integral hi).1 hs⟩

theorem ceil64lane_iff (x : BitVec 64) : IsRnd ceilInt x (ceil64lane x) ↔
    mag x ≠ 0x432fffffffffffff ∧ (Fp.Integral x ∨ mag x < 0x3ff0000000000000 ∨ Lucky x) := by
  by_cases ht : mag x = 0x432fffffffffffff
  · have e : ceil64lane x = x := by
      unfold ceil64lane
      dsimp only
      rw [range64, decide_eq_false (by omega), if_neg (by decide)]
    rw [e]
    exact ⟨fun h => absurd h (not_rnd_self (top_not ht) rfl), fun h => absurd ht h.1⟩
  by_cases hi : Fp.Integral x
  · exact ⟨fun _ => ⟨ht, Or.inl hi⟩, fun _ => ceil64lane_spec x ht (Or.inl hi)⟩
  by_cases hs : mag x < 0x3ff0000000000000
  · exact ⟨fun _ => ⟨ht, Or.inr (Or.inl hs)⟩, fun _ => ceil64lane_spec x ht (Or.inr hs)⟩
  have fx := (not_integral hi).1
  have hb : mag x < 0x4330000000000000 := by
    by_contra hb
    apply (not_integral hi).2
    have e1 : (2 ^ unit 64 : Nat) ∣ (num x).natAbs := by rw [num_natAbs]; exact above_52 (by omega)
    have := Int.natCast_dvd.2 e1
    push_cast at this
    exact this
  have key : IsRnd ceilInt x (ceil64lane x) ↔ Lucky x := by
    have hr := range64 x
    rw [decide_eq_true (by omega)] at hr
    unfold ceil64lane
    dsimp only
    rw [hr, if_pos rfl, one64, decide_eq_false hs, low_pos hi (by omega) hb, (neg_iff fx).2]
    simp only [Bool.true_and, Bool.false_and, Bool.or_false, Bool.false_eq_true, if_false]
    cases hm : x.msb
    · have hpos : 0 < num x := by
        rw [num_pos_eq hm]; exact_mod_cast (numMag_pos (w := 64)).2 (by omega)
      rw [decide_eq_true hpos, if_pos rfl]
      exact add_one_iff hi hm (by omega) (by omega)
    · have hneg : ¬ 0 < num x := by rw [num_neg_eq hm]; omega
      rw [decide_eq_false hneg, if_neg (by decide)]
      refine ⟨fun h => absurd h (not_rnd_self hi (add_zero' fw64 fx (by decide) (by decide)).2), ?_⟩
      rintro ⟨e, -, hL⟩
      exfalso
      apply hneg
      rw [hL]
      have h1 : (1 : Int) ≤ 2 ^ (e + 1) := one_le_pow₀ (by decide)
      have h2 : (0 : Int) ≤ (2 ^ (e + 1) - 1) * 2 ^ unit 64 := mul_nonneg (by omega) (by positivity)
      have h3 : (0 : Int) < 2 ^ (1022 + e) := by positivity
      omega
  rw [key]
  exact ⟨fun h => ⟨ht, Or.inr (Or.inr h)⟩, fun h => by
    rcases h.2 with h | h | h
    · exact absurd h hi
    · exact absurd h hs
    · exact h⟩

/-! ### float -/

theorem top32_not {x r : BitVec 32} {f : BitVec 32 → Int} (h : mag x = 0x4affffff) (hr : r = x) : ¬ IsRnd f x r := by
  intro g
  subst hr
  have fx : isFinite r = true := isFinite_iff.2 (by have : infBits 32 = 0x7f800000 := by decide
                                                    omega)
  have hd := IsRnd.dvd fx g
  have h2 := Int.natAbs_dvd_natAbs.2 hd
  rw [num_natAbs, h] at h2
  revert h2
  decide +kernel

theorem floor32lane_iff {T : BitVec 32 → BitVec 32} (hT : Truncates T) (x : BitVec 32) :
    IsRnd floorInt x (floor32lane T x) ↔ mag x ≠ 0x4affffff := by
  refine ⟨fun h g => top32_not g ?_ h, floor32lane_spec hT x⟩
  unfold floor32lane
  rw [decide_eq_false (by omega), Bool.false_and, if_neg (by decide)]

theorem ceil32lane_iff {T : BitVec 32 → BitVec 32} (hT : Truncates T) (x : BitVec 32) :
    IsRnd ceilInt x (ceil32lane T x) ↔ mag x ≠ 0x4affffff := by
  refine ⟨fun h g => top32_not g ?_ h, ceil32lane_spec hT x⟩
  unfold ceil32lane
  rw [decide_eq_false (by omega), Bool.false_and, if_neg (by decide)]

theorem rndFn_near {w : Nat} : RndFn (nearInt (w := w)) := by
  refine ⟨fun x _ h => ?_, fun x => ?_⟩
  · obtain ⟨s, hs⟩ := h
    have e : rne (numMag w (mag x)) (unit w) = s := by rw [hs, Nat.mul_comm]; exact rne_exact s _
    have e2 : ((numMag w (mag x) : Nat) : Int) = s * 2 ^ unit w := by rw [hs, Nat.cast_mul, cast2, Int.mul_comm]
    unfold nearInt
    rw [e]
    cases hm : x.msb
    · rw [num_pos_eq hm, if_neg Bool.false_ne_true, e2]
    · rw [num_neg_eq hm, if_pos rfl, e2, Int.neg_mul]
  · have : rne (numMag w (mag x)) (unit w) ≤ numMag w (mag x) / 2 ^ unit w + 1 := by
      unfold rne
      dsimp only
      split_ifs
      · exact Nat.le_succ _
      · exact Nat.le_refl _
    unfold nearInt
    generalize rne (numMag w (mag x)) (unit w) = r at *
    generalize numMag w (mag x) / 2 ^ unit w = d at *
    split_ifs <;> omega

/-! ### C34 -/

theorem round64_emu {f g : BitVec 64 → Int} {emu : Cfg → Vec 64 n → Option (Vec 64 n)} {c : Cfg}
    (he : c.sse41 = false ∧ (c.sse2 = true ∨ c.msa = true)) (a : Vec 64 n) : round64 f g emu c .r128 a = emu c a := by
  unfold round64
  dsimp only
  rw [if_neg (by simp [he.1]), if_pos he.2]

/-- C34: where `trunc` on `double` is emulated (SSE2 to SSSE3, MSA), it is right exactly on the numbers other than
`±4503599627370495.5`. -/
theorem C34_trunc_double_exact {c : Cfg} (h : c.Ok) (he : c.sse41 = false ∧ (c.sse2 = true ∨ c.msa = true)) (a : Vec 64 n) :
    ∃ res, i_trunc64 c .r128 a = some res ∧ ∀ i, IsRnd Fp.truncInt (a i) (res i) ↔ Flt.mag (a i) ≠ 0x432fffffffffffff :=
  ⟨_, (round64_emu he a).trans (trunc64emu_eq h a), fun i => trunc64lane_iff (a i)⟩

/-- C34: where `floor` on `double` is emulated, it is right exactly on the numbers that are integral or zero to one, apart from
`±4503599627370495.5`: wrong on every other number that has a fraction. -/
theorem C34_floor_double_exact {c : Cfg} (h : c.Ok) (he : c.sse41 = false ∧ (c.sse2 = true ∨ c.msa = true)) (a : Vec 64 n) :
    ∃ res, i_floor64 c .r128 a = some res ∧ ∀ i, IsRnd Fp.floorInt (a i) (res i) ↔
      Flt.mag (a i) ≠ 0x432fffffffffffff ∧ (Fp.Integral (a i) ∨ (Flt.mag (a i) < 0x3ff0000000000000 ∧ Flt.flt (a i) 0 = false)) :=
  ⟨_, (round64_emu he a).trans (floor64emu_eq h a), fun i => floor64lane_iff (a i)⟩

/-- C34: where `ceil` on `double` is emulated, it is right exactly on the numbers that are integral, below one in magnitude, or one unit
in the last place above `2 ^ (e + 1) - 1` for an `e < 51`, apart from `±4503599627370495.5`. -/
theorem C34_ceil_double_exact {c : Cfg} (h : c.Ok) (he : c.sse41 = false ∧ (c.sse2 = true ∨ c.msa = true)) (a : Vec 64 n) :
    ∃ res, i_ceil64 c .r128 a = some res ∧ ∀ i, IsRnd Fp.ceilInt (a i) (res i) ↔
      Flt.mag (a i) ≠ 0x432fffffffffffff ∧ (Fp.Integral (a i) ∨ Flt.mag (a i) < 0x3ff0000000000000 ∨
        ∃ e, e < 51 ∧ Fp.num (a i) = (2 ^ (e + 1) - 1) * 2 ^ Fp.unit 64 + 2 ^ (1022 + e)) :=
  ⟨_, (round64_emu he a).trans (ceil64emu_eq h a), fun i => ceil64lane_iff (a i)⟩

/-- C34: on NEON64 `floor` on `double` rounds to the nearest integer, ties to even. -/
theorem C34_floor_neon64_exact {c : Cfg} (h : c.Ok) (hn : c.neon64 = true) (a : Vec 64 n) :
    ∃ res, i_floor64 c .r128 a = some res ∧ ∀ i, IsRnd Fp.nearInt (a i) (res i) := by
  have h1 : ¬ c.sse41 = true := by intro g; cfg_absurd h
  have h2 : ¬ (c.sse2 = true ∨ c.msa = true) := by rintro (g | g) <;> cfg_absurd h
  refine ⟨a.map (Hw.rint nearInt), ?_, fun i => rint_spec fw64 rndFn_near (a i)⟩
  unfold i_floor64 round64
  dsimp only
  rw [if_neg h1, if_neg h2, if_pos hn]

/-- C34: where `floor` and `ceil` on `float` are emulated (SSE2 to SSSE3, 32-bit NEON with float vectors, MSA) they are right exactly on
the numbers other than `±8388607.5`. -/
theorem C34_floor_ceil_float_exact {c : Cfg} (h : c.Ok)
    (he : c.sse41 = false ∧ c.neon64 = false ∧ (c.sse2 = true ∨ c.neonFltSp = true ∨ c.msa = true)) (hnn : c.neonNoFltSp = false)
    (hn : n % 2 = 0) (a : Vec 32 n) :
    (∃ res, i_floor32 c .r128 a = some res ∧ ∀ i, IsRnd Fp.floorInt (a i) (res i) ↔ Flt.mag (a i) ≠ 0x4affffff) ∧
    (∃ res, i_ceil32 c .r128 a = some res ∧ ∀ i, IsRnd Fp.ceilInt (a i) (res i) ↔ Flt.mag (a i) ≠ 0x4affffff) := by
  have hnull : ¬ (c.null = true ∨ c.neonNoFltSp = true) := by
    rintro (g | g)
    · obtain ⟨e1, e2, e3⟩ := he; cfg_absurd h
    · rw [hnn] at g; cases g
  constructor
  · refine ⟨_, ?_, fun i => floor32lane_iff (cvtF_trunc c) (a i)⟩
    unfold i_floor32 round32
    dsimp only
    rw [if_neg hnull, if_neg (by simp [he.1]), if_neg (by simp [he.2.1]), if_pos he.2.2]
    exact floor32emu_eq h he hn a
  · refine ⟨_, ?_, fun i => ceil32lane_iff (cvtF_trunc c) (a i)⟩
    unfold i_ceil32 round32
    dsimp only
    rw [if_neg hnull, if_neg (by simp [he.1]), if_neg (by simp [he.2.1]), if_pos he.2.2]
    exact ceil32emu_eq h he hn a

-- the builds the theorems are about
example : Cfg.sse2Only.sse41 = false ∧ Cfg.sse2Only.sse2 = true ∧ Cfg.sse2Only.neonNoFltSp = false ∧ Cfg.msaOnly.msa = true ∧
    Cfg.neonA64.neon64 = true := by decide
-- 3.0000000000000004 = 2 ^ 2 - 1 + 2 ^ (1 - 52) is one of the numbers on which `ceil` is right by accident; -1.5 is none of them
example : num 0x4008000000000001#64 = (2 ^ (1 + 1) - 1) * 2 ^ unit 64 + 2 ^ (1022 + 1) ∧ ceilInt 0x4008000000000001#64 = 4 ∧
    ceil64lane 0x4008000000000001#64 = 0x4010000000000000#64 := by decide +kernel
example : ¬ IsRnd floorInt 0xbff8000000000000#64 (floor64lane 0xbff8000000000000#64) := by
  rw [floor64lane_iff]
  rintro ⟨-, h | h⟩
  · have := Int.emod_eq_zero_of_dvd (h (by decide))
    revert this; decide +kernel
  · revert h; decide

end Simdpp
