import Verif.Model.Mul
import Verif.Props.Conv
import Mathlib.Tactic.Linarith

/-! Lemmas about integer multiplication. -/

namespace Simdpp
open Spec Sh

variable {w v n N : Nat}

/-- The low bits of the full product. -/
theorem mulLane_low (sg : Bool) (hv : w ≤ v) (x y : BitVec w) : (Hw.mulLane sg v x y).setWidth w = x * y := by
  have key : ∀ z : BitVec w, (Hw.extLane sg v z).setWidth w = z := by
    intro z
    cases sg
    · exact (BitVec.setWidth_setWidth_of_le z hv).trans (BitVec.setWidth_eq z)
    · apply BitVec.eq_of_getLsbD_eq
      intro k hk
      simp only [Hw.extLane, if_true, BitVec.getLsbD_setWidth, BitVec.getLsbD_signExtend]
      simp [hk, show k < v by omega]
  unfold Hw.mulLane
  rw [BitVec.setWidth_mul _ _ hv, key, key]

theorem mulLane_getLsbD (sg : Bool) (x y : BitVec w) {k : Nat} (hk : k < 2 * w) :
    (Hw.mulLane sg (2 * w) x y).getLsbD k =
      if k < w then (x * y).getLsbD k else ((Hw.mulLane sg (2 * w) x y).extractLsb' w w).getLsbD (k - w) := by
  by_cases g : k < w
  · rw [if_pos g, ← mulLane_low sg (v := 2 * w) (by omega), BitVec.getLsbD_setWidth]
    simp [g]
  · rw [if_neg g, BitVec.getLsbD_extractLsb']
    simp [show k - w < w by omega, show w + (k - w) = k by omega]

/-- The full product is the product of the numbers. -/
theorem val_mulLane (sg : Bool) (hw : 0 < w) (hv : 2 * w ≤ v) (x y : BitVec w) :
    val sg (Hw.mulLane sg v x y) = val sg x * val sg y := by
  cases sg
  · simp only [val, Hw.mulLane, Hw.extLane, Bool.false_eq_true, if_false]
    rw [BitVec.toNat_mul, BitVec.toNat_setWidth, BitVec.toNat_setWidth]
    have h1 := x.isLt
    have h2 := y.isLt
    have h3 : 2 ^ w ≤ 2 ^ v := Nat.pow_le_pow_right (by decide) (by omega)
    have h4 : x.toNat * y.toNat < 2 ^ v := by
      calc x.toNat * y.toNat < 2 ^ w * 2 ^ w := Nat.mul_lt_mul'' h1 h2
        _ = 2 ^ (2 * w) := by rw [← Nat.pow_add]; congr 1; omega
        _ ≤ 2 ^ v := Nat.pow_le_pow_right (by decide) hv
    rw [Nat.mod_eq_of_lt (by omega : x.toNat < 2 ^ v), Nat.mod_eq_of_lt (by omega : y.toNat < 2 ^ v), Nat.mod_eq_of_lt h4]
    exact Int.natCast_mul _ _
  · simp only [val, Hw.mulLane, Hw.extLane, if_true]
    rw [BitVec.toInt_mul, BitVec.toInt_signExtend_of_le (by omega), BitVec.toInt_signExtend_of_le (by omega)]
    have hx1 := BitVec.le_toInt x
    have hx2 := BitVec.toInt_lt (x := x)
    have hy1 := BitVec.le_toInt y
    have hy2 := BitVec.toInt_lt (x := y)
    obtain ⟨k, rfl⟩ : ∃ k, w = k + 1 := ⟨w - 1, by omega⟩
    simp only [Nat.add_sub_cancel] at *
    have hp : (0 : Int) < 2 ^ k := by positivity
    have h5 : (2 : Int) ^ k * 2 ^ k * 4 ≤ (2 ^ v : Nat) := by
      push_cast
      calc (2 : Int) ^ k * 2 ^ k * 4 = 2 ^ (2 * (k + 1)) := by ring
        _ ≤ 2 ^ v := pow_le_pow_right₀ (by decide) hv
    generalize x.toInt = X at *
    generalize y.toInt = Y at *
    generalize (2 : Int) ^ k = P at *
    have hu : X * Y ≤ P * P := by nlinarith
    have hl : -(P * P) ≤ X * Y := by nlinarith
    have hPP : 0 < P * P := by positivity
    rw [Int.bmod_eq_of_le_mul_two] <;> nlinarith

theorem vmull_at (sg : Bool) (a b : Vec w n) {i : Nat} (hi : i < n) :
    (Hw.vmull sg v a b).at_ i = Hw.mulLane sg v (a.at_ i) (b.at_ i) := by
  rw [Vec.at_lt _ hi, Vec.at_lt _ hi, Vec.at_lt _ hi]; rfl

theorem mullo_at (a b : Vec w n) {i : Nat} (hi : i < n) : (Hw.mullo a b).at_ i = a.at_ i * b.at_ i := by
  rw [Vec.at_lt _ hi, Vec.at_lt _ hi, Vec.at_lt _ hi]; rfl

theorem mulhi_at (sg : Bool) (a b : Vec w n) {i : Nat} (hi : i < n) :
    (Hw.mulhi sg a b).at_ i = (Hw.mulLane sg (2 * w) (a.at_ i) (b.at_ i)).extractLsb' w w := by
  rw [Vec.at_lt _ hi, Vec.at_lt _ hi, Vec.at_lt _ hi]; rfl

variable {c : Cfg} (h : c.Ok)

include h in
/-- `zip_lo` / `zip_hi` seen as lanes of twice the width. -/
theorem zipPairR_eq (hw : IsW w) (h64 : w ≠ 64) {r : Reg} (hr : c.hasInt w r = true) {m : Nat} (hn : n = r.lanes w) (hm : n = 2 * m)
    (a z : Vec w n) {p : Nat} (hp : p < 2) :
    ∃ x, zipPairR c r m a z p = some x ∧ ∀ j, j < m → ∀ k, k < 2 * w → (x.at_ j).getLsbD k =
      if k < w then (a.at_ (j / (64 / w) * (2 * (64 / w)) + p * (64 / w) + j % (64 / w))).getLsbD k
      else (z.at_ (j / (64 / w) * (2 * (64 / w)) + p * (64 / w) + j % (64 / w))).getLsbD (k - w) := by
  have hL : 128 / w = 2 * (64 / w) := by rcases hw with e | e | e | e <;> subst e <;> simp_all
  have hH0 : 0 < 64 / w := by rcases hw with e | e | e | e <;> subst e <;> simp_all
  have hw0 := isW_pos hw
  have hz1 := i_zip_lo_eq h (k := .int) (r := r) (n := n) hw hr hn a z
  have hz2 := i_zip_hi_eq h (k := .int) (r := r) (n := n) hw hr hn a z
  generalize hH : 64 / w = H at *
  have key : ∀ f : Nat → Nat, (∀ j, j < H → f (2 * j) = p * H + j ∧ f (2 * j + 1) = 2 * H + (p * H + j)) →
      ∀ j, j < m → ∀ k, k < 2 * w → (((gather (128 / w) f a z).recast (2 * w) m).at_ j).getLsbD k =
      if k < w then (a.at_ (j / H * (2 * H) + p * H + j % H)).getLsbD k
      else (z.at_ (j / H * (2 * H) + p * H + j % H)).getLsbD (k - w) := by
    intro f hf j hj k hk
    have hjm := Nat.mod_lt j hH0
    have hjd := Nat.div_add_mod j H
    have hpm : p * H ≤ H := by
      have : p * H ≤ 1 * H := Nat.mul_le_mul_right _ (by omega)
      omega
    have hlt : p * H + j % H < 2 * H := by omega
    have d1 : 2 * j / (2 * H) = j / H := Nat.mul_div_mul_left _ _ (by decide)
    have d2 : (2 * j + 1) / (2 * H) = j / H := by
      rw [← Nat.div_div_eq_div_mul]; congr 1; omega
    have m1 : 2 * j % (2 * H) = 2 * (j % H) := Nat.mul_mod_mul_left 2 j H
    have m2 : (2 * j + 1) % (2 * H) = 2 * (j % H) + 1 := by
      have e1 := Nat.div_add_mod (2 * j + 1) (2 * H)
      have e2 := Nat.div_add_mod (2 * j) (2 * H)
      rw [d2] at e1; rw [d1, m1] at e2
      omega
    rw [Vec.at_lt _ hj, Vec.recast_getLsbD]
    simp only [hk, decide_true, Bool.true_and]
    unfold Vec.bit
    have e1 : (j * (2 * w) + k) = k + (2 * j) * w := by ring
    by_cases hkw : k < w
    · rw [if_pos hkw, e1, Nat.add_mul_div_right _ _ hw0, Nat.add_mul_mod_self_right, Nat.div_eq_of_lt hkw, Nat.mod_eq_of_lt hkw,
        Nat.zero_add]
      have hi : 2 * j < n := by omega
      rw [gather_at _ _ hi, hL, d1, m1, (hf _ hjm).1, if_pos hlt, Nat.add_assoc]
    · obtain ⟨d, rfl⟩ : ∃ d, k = w + d := ⟨k - w, by omega⟩
      have hd : d < w := by omega
      rw [if_neg hkw, show j * (2 * w) + (w + d) = d + (2 * j + 1) * w by ring, Nat.add_mul_div_right _ _ hw0,
        Nat.add_mul_mod_self_right, Nat.div_eq_of_lt hd, Nat.mod_eq_of_lt hd, Nat.zero_add]
      have hi : 2 * j + 1 < n := by omega
      rw [gather_at _ _ hi, hL, d2, m2, (hf _ hjm).2, if_neg (by omega), if_pos (by omega), Nat.add_assoc]
      simp
  unfold zipPairR
  rcases (by omega : p = 0 ∨ p = 1) with e | e <;> subst e
  · rw [if_pos rfl, hz1]
    refine ⟨_, rfl, key _ fun j hj => ?_⟩
    unfold zipI
    constructor
    · rw [if_pos (by omega)]; omega
    · rw [if_neg (by omega), hL]; omega
  · rw [if_neg (by decide), hz2]
    refine ⟨_, rfl, key _ fun j hj => ?_⟩
    unfold zipH
    constructor
    · rw [if_pos (by omega), hL]; omega
    · rw [if_neg (by omega), hL]; omega

/-- Lanes of a register whose 64-bit lanes were moved. -/
theorem perm64_at {m : Nat} (hn : n = m * 4) (σ : Nat → Nat) (a : Vec 16 n) (P : Vec 64 m)
    (hP : ∀ i, i < m → P.at_ i = (a.recast 64 m).at_ (σ i)) (hσ : ∀ i, i < m → σ i < m) {x : Nat} (hx : x < n) :
    (P.recast 16 n).at_ x = a.at_ (σ (x / 4) * 4 + x % 4) := by
  have h4 : x / 4 < m := by omega
  have h5 := hσ _ h4
  rw [recast_at (w := 64) (v := 16) (q := 4) (by decide) (by decide) rfl hn, hP _ h4]
  apply BitVec.eq_of_getLsbD_eq
  intro k hk
  rw [BitVec.getLsbD_extractLsb', Vec.at_lt _ h5, Vec.recast_getLsbD]
  simp only [hk, show x % 4 * 16 + k < 64 by omega, decide_true, Bool.true_and]
  unfold Vec.bit
  congr 2 <;> omega

include h in
/-- Low and high halves interleaved make the full products, provided the operands were put in the order that undoes the
interleaving. -/
theorem mulZip_eq (sg : Bool) {r : Reg} (hr : c.hasInt 16 r = true) {m : Nat} (hm0 : 0 < m) (hn : n = r.lanes 16) (hm : n = 2 * m)
    (hm4 : ∃ t, m = t * 4) (a b as bs : Vec 16 n)
    (ha : ∀ p j, p < 2 → j < m → as.at_ (j / 4 * 8 + p * 4 + j % 4) = a.at_ (p * m + j))
    (hb : ∀ p j, p < 2 → j < m → bs.at_ (j / 4 * 8 + p * 4 + j % 4) = b.at_ (p * m + j)) :
    (catM m (zipPairR c r m (Hw.mullo as bs) (Hw.mulhi sg as bs)) : Option (Vec 32 n)) = some (Hw.vmull sg 32 a b) := by
  refine catM_of hm0 fun p hpN => ?_
  have hp : p < 2 := by
    by_contra g
    have : 2 * m ≤ p * m := Nat.mul_le_mul_right _ (by omega)
    omega
  obtain ⟨x, e, hx⟩ := zipPairR_eq h (m := m) iw16 (by decide) hr hn hm (Hw.mullo as bs) (Hw.mulhi sg as bs) hp
  refine ⟨x, e, fun j hj hN => ?_⟩
  rw [vmull_at _ _ _ hN]
  apply BitVec.eq_of_getLsbD_eq
  intro k hk
  rw [hx j hj k hk]
  have hlt : j / 4 * 8 + p * 4 + j % 4 < n := by
    obtain ⟨t, rfl⟩ := hm4
    omega
  simp only [show 64 / 16 = 4 by decide, show 2 * 4 = 8 by decide]
  rw [mullo_at _ _ hlt, mulhi_at _ _ _ hlt, ha p j hp hj, hb p j hp hj]
  exact (mulLane_getLsbD sg _ _ hk).symm

end Simdpp
