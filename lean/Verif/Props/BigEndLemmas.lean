import Verif.Model.BigEnd
import Verif.Props.Samples

/-! The order of bits in memory on a big-endian target. -/

namespace Simdpp.BE

variable {w v n m : Nat}

theorem bit_lane (a : Vec w n) (j : Nat) {t : Nat} (ht : t < w) : bit a (j * w + t) = (a.at_ j).getLsbD (w - 1 - t) := by
  have hw : 0 < w := by omega
  unfold bit
  rw [Nat.add_comm, Nat.add_mul_div_right _ _ hw, Nat.div_eq_of_lt ht, Nat.zero_add, Nat.add_mul_mod_self_right, Nat.mod_eq_of_lt ht]

theorem recast_get (a : Vec w n) (j : Fin m) {k : Nat} (hk : k < v) :
    (recast v m a j).getLsbD k = bit a (j.val * v + (v - 1 - k)) := by
  unfold recast
  rw [ofBits_getLsbD]
  simp [hk]

theorem bit_recast (a : Vec w n) {p : Nat} (hv : 0 < v) (h : p < v * m) : bit (recast v m a) p = bit a p := by
  have hp : p / v < m := Nat.div_lt_of_lt_mul h
  have hm : p % v < v := Nat.mod_lt _ hv
  conv_lhs => unfold bit
  rw [Vec.at_lt _ hp, recast_get _ _ (by omega)]
  congr 1
  show p / v * v + (v - 1 - (v - 1 - p % v)) = p
  have := Nat.div_add_mod' p v
  omega

theorem ext_bit {a b : Vec w n} (h : ∀ p, p < w * n → bit a p = bit b p) : a = b := by
  funext i
  apply BitVec.eq_of_getLsbD_eq
  intro k hk
  have hi := i.isLt
  have : i.val * w + (w - 1 - k) < w * n := by
    calc i.val * w + (w - 1 - k) < i.val * w + w := by omega
      _ = w * (i.val + 1) := by ring_nf
      _ ≤ w * n := Nat.mul_le_mul_left _ (by omega)
  have := h _ this
  rw [bit_lane a _ (by omega), bit_lane b _ (by omega), Vec.at_fin, Vec.at_fin, show w - 1 - (w - 1 - k) = k by omega] at this
  exact this

theorem recast_self (hw : 0 < w) (a : Vec w n) : recast w n a = a :=
  ext_bit fun _ hp => bit_recast a hw hp

/-- Reinterpreting and back. -/
theorem recast_recast (hw : 0 < w) (hv : 0 < v) (hs : v * m = w * n) (a : Vec w n) : recast w n (recast v m a) = a :=
  ext_bit fun _ hp => by rw [bit_recast _ hw hp, bit_recast _ hv (by omega)]

/-- Two lanes as one: the first is the more significant. -/
theorem recast_up (a : Vec w n) (j : Nat) (hj : j < m) :
    (recast (w + w) m a).at_ j = a.at_ (2 * j) ++ a.at_ (2 * j + 1) := by
  rw [Vec.at_lt _ hj]
  apply BitVec.eq_of_getLsbD_eq
  intro k hk
  rw [recast_get _ _ hk, BitVec.getLsbD_append]
  show bit a (j * (w + w) + (w + w - 1 - k)) = _
  by_cases h : k < w
  · rw [if_pos h, show j * (w + w) + (w + w - 1 - k) = (2 * j + 1) * w + (w - 1 - k) by
      have : (2 * j + 1) * w = j * (w + w) + w := by ring
      omega, bit_lane _ _ (by omega)]
    congr 1; omega
  · rw [if_neg h, show j * (w + w) + (w + w - 1 - k) = (2 * j) * w + (w - 1 - (k - w)) by
      have : (2 * j) * w = j * (w + w) := by ring
      omega, bit_lane _ _ (by omega)]
    congr 1; omega

/-- One lane as two: first the upper half, then the lower half. -/
theorem recast_down (hn : n = 2 * m) (a : Vec (w + w) m) (j : Nat) (hj : j < m) :
    (recast w n a).at_ (2 * j) = (a.at_ j).extractLsb' w w ∧ (recast w n a).at_ (2 * j + 1) = (a.at_ j).setWidth w := by
  constructor
  · rw [Vec.at_lt _ (by omega : 2 * j < n)]
    apply BitVec.eq_of_getLsbD_eq
    intro k hk
    rw [recast_get _ _ hk, BitVec.getLsbD_extractLsb']
    show bit a (2 * j * w + (w - 1 - k)) = _
    rw [show 2 * j * w + (w - 1 - k) = j * (w + w) + (w - 1 - k) by ring, bit_lane _ _ (by omega)]
    simp only [hk, decide_true, Bool.true_and]
    congr 1; omega
  · rw [Vec.at_lt _ (by omega : 2 * j + 1 < n)]
    apply BitVec.eq_of_getLsbD_eq
    intro k hk
    rw [recast_get _ _ hk, BitVec.getLsbD_setWidth]
    show bit a ((2 * j + 1) * w + (w - 1 - k)) = _
    rw [show (2 * j + 1) * w + (w - 1 - k) = j * (w + w) + (w + (w - 1 - k)) by ring, bit_lane _ _ (by omega)]
    simp only [hk, decide_true, Bool.true_and]
    congr 1; omega

/-- The lane of `a:b` with number `k`. -/
def pick (a b : Vec w n) (k : Nat) : BitVec w := if k < n then a.at_ k else b.at_ (k - n)

/-- A byte vector that takes whole lanes of `a:b` is, reinterpreted, that selection of lanes. -/
theorem recast_pick {q : Nat} (hq : 0 < q) (hw : w = 8 * q) (hn : 16 = q * n) (a b : Vec w n) (σ : Nat → Nat) {y : Vec 8 16}
    (hσ : ∀ j, j < n → σ j < 2 * n)
    (hy : ∀ i, i < 16 → y.at_ i = pick (recast 8 16 a) (recast 8 16 b) (q * σ (i / q) + i % q)) :
    recast w n y = fun j => pick a b (σ j.val) := by
  have hw0 : 0 < w := by omega
  refine ext_bit fun p hp => ?_
  have h128 : w * n = 128 := by rw [hw, Nat.mul_assoc, ← hn]
  rw [bit_recast _ hw0 hp]
  -- byte and lane numbers of bit `p`
  have hj : p / w < n := Nat.div_lt_of_lt_mul hp
  have e1 : p / 8 / q = p / w := by rw [Nat.div_div_eq_div_mul, hw]
  have hR : bit (fun j : Fin n => pick a b (σ j.val)) p = bit (if σ (p / w) < n then a else b)
      ((if σ (p / w) < n then σ (p / w) else σ (p / w) - n) * w + p % w) := by
    rw [bit_lane _ _ (Nat.mod_lt _ hw0)]
    conv_lhs => unfold bit
    rw [Vec.at_lt _ hj]
    show (pick a b (σ (p / w))).getLsbD _ = _
    unfold pick
    split_ifs <;> rfl
  rw [hR]
  have hi : p / 8 < 16 := by omega
  have hs := hσ _ hj
  have hmq : p / 8 % q < q := Nat.mod_lt _ hq
  have e2 : p % w = 8 * (p / 8 % q) + p % 8 := by rw [hw, Nat.mod_mul]; omega
  conv_lhs => unfold bit
  rw [hy _ hi, e1]
  unfold pick
  by_cases hc : σ (p / w) < n
  · have hlt : q * σ (p / w) + p / 8 % q < 16 := by
      calc q * σ (p / w) + p / 8 % q < q * σ (p / w) + q := by omega
        _ = q * (σ (p / w) + 1) := by ring
        _ ≤ q * n := Nat.mul_le_mul_left _ hc
        _ = 16 := hn.symm
    rw [if_pos hlt, if_pos hc, if_pos hc, ← bit_lane _ _ (Nat.mod_lt p (by decide : 0 < 8)), bit_recast _ (by decide) (by omega)]
    congr 1
    rw [e2]
    generalize σ (p / w) = s
    rw [hw]; ring
  · have hge : ¬ q * σ (p / w) + p / 8 % q < 16 := by
      have : q * n ≤ q * σ (p / w) := Nat.mul_le_mul_left _ (by omega)
      omega
    have hlt : q * σ (p / w) + p / 8 % q < 32 := by
      calc q * σ (p / w) + p / 8 % q < q * σ (p / w) + q := by omega
        _ = q * (σ (p / w) + 1) := by ring
        _ ≤ q * (2 * n) := Nat.mul_le_mul_left _ hs
        _ = 2 * (q * n) := by ring
        _ = 32 := by omega
    rw [if_neg hge, if_neg hc, if_neg hc, ← bit_lane _ _ (Nat.mod_lt p (by decide : 0 < 8)), bit_recast _ (by decide) (by omega)]
    congr 1
    have h5 : q * σ (p / w) = q * (σ (p / w) - n) + 16 := by
      rw [hn, ← Nat.mul_add, Nat.sub_add_cancel (by omega)]
    rw [show q * σ (p / w) + p / 8 % q - 16 = q * (σ (p / w) - n) + p / 8 % q by omega, e2]
    generalize σ (p / w) - n = s
    rw [hw]; ring

end Simdpp.BE
