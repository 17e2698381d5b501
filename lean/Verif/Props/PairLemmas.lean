import Verif.Model.Vec

/-! Two adjacent `w`-bit lanes seen as one `2w`-bit lane. -/

namespace Simdpp

variable {w n : Nat}

/-- A register of `w`-bit lanes read as `u = w + w`-bit lanes: low half is the even lane. -/
theorem Vec.recast_up {u m : Nat} (hu : u = w + w) (hn : n = 2 * m) (a : Vec w n) (j : Fin m) (k : Nat) :
    (Vec.recast u m a j).getLsbD k =
      (if k < w then (a.at_ (2 * j.val)).getLsbD k
       else (a.at_ (2 * j.val + 1)).getLsbD (k - w)) := by
  subst hu
  rw [Vec.recast_getLsbD]
  by_cases hw : w = 0
  · subst hw; simp
  have hw : 0 < w := by omega
  unfold Vec.bit
  by_cases h1 : k < w
  · have e : j.val * (w + w) + k = k + (2 * j.val) * w := by ring
    rw [e, Nat.add_mul_div_right _ _ hw, Nat.add_mul_mod_self_right, Nat.div_eq_of_lt h1,
      Nat.mod_eq_of_lt h1]
    simp [h1, show k < w + w by omega]
  · by_cases h2 : k < w + w
    · have e : j.val * (w + w) + k = (k - w) + (2 * j.val + 1) * w := by
        have : (2 * j.val + 1) * w = j.val * (w + w) + w := by ring
        omega
      rw [e, Nat.add_mul_div_right _ _ hw, Nat.add_mul_mod_self_right, Nat.div_eq_of_lt (by omega),
        Nat.mod_eq_of_lt (by omega)]
      simp [h1, h2]
    · simp only [h1, h2, decide_false, Bool.false_and, if_false]
      symm; exact BitVec.getLsbD_of_ge _ _ (by omega)

theorem Vec.recast_up_eq {m : Nat} (hn : n = 2 * m) (a : Vec w n) (j : Fin m) :
    Vec.recast (w + w) m a j = a.at_ (2 * j.val + 1) ++ a.at_ (2 * j.val) := by
  apply BitVec.eq_of_getLsbD_eq
  intro k hk
  rw [Vec.recast_up rfl hn, BitVec.getLsbD_append]

/-- The other direction: lane `i` of the narrow view is the half of wide lane `i / 2` selected
by the parity of `i`. -/
theorem Vec.recast_down {u m : Nat} (hu : u = w + w) (hn : n = 2 * m) (b : Vec u m) (i : Fin n) (k : Nat) :
    (Vec.recast w n b i).getLsbD k =
      (decide (k < w) && (b.at_ (i.val / 2)).getLsbD (i.val % 2 * w + k)) := by
  subst hu
  rw [Vec.recast_getLsbD]
  by_cases hk : k < w
  · simp only [hk, decide_true, Bool.true_and]
    unfold Vec.bit
    have e : i.val * w + k = (i.val % 2 * w + k) + (i.val / 2) * (w + w) := by
      have h := Nat.div_add_mod i.val 2
      calc i.val * w + k = (2 * (i.val / 2) + i.val % 2) * w + k := by rw [h]
        _ = _ := by ring
    have hlt : i.val % 2 * w + k < w + w := by
      have : i.val % 2 < 2 := Nat.mod_lt _ (by omega)
      have : i.val % 2 * w ≤ 1 * w := Nat.mul_le_mul_right _ (by omega)
      omega
    rw [e, Nat.add_mul_div_right _ _ (by omega), Nat.add_mul_mod_self_right, Nat.div_eq_of_lt hlt,
      Nat.mod_eq_of_lt hlt, Nat.zero_add]
  · simp [hk]

/-- An operation on wide lanes that acts on the two halves independently is a lane-wise
operation on the narrow lanes. -/
theorem via_pair (f : BitVec (w + w) → BitVec (w + w)) (g : BitVec w → BitVec w)
    (hf : ∀ x y, f (x ++ y) = g x ++ g y) (hn : n % 2 = 0) (a : Vec w n) :
    Vec.recast w n (fun j => f (Vec.recast (w + w) (n / 2) a j)) = fun i => g (a i) := by
  have hn' : n = 2 * (n / 2) := by omega
  funext i
  apply BitVec.eq_of_getLsbD_eq
  intro k hk
  have hi := i.isLt
  rw [Vec.recast_down rfl hn']
  simp only [hk, decide_true, Bool.true_and]
  rw [Vec.at_lt _ (by omega : i.val / 2 < n / 2), Vec.recast_up_eq hn', hf, BitVec.getLsbD_append]
  rcases Nat.mod_two_eq_zero_or_one i.val with h | h
  · have e : 2 * (i.val / 2) = i.val := by omega
    simp [h, hk, e]
  · have e : 2 * (i.val / 2) + 1 = i.val := by omega
    simp only [h, Nat.one_mul, show ¬ (w + k < w) by omega, if_false, e, Vec.at_fin,
      Nat.add_sub_cancel_left]

/-- Two-operand version. -/
theorem via_pair2 (f : BitVec (w + w) → BitVec (w + w) → BitVec (w + w))
    (g : BitVec w → BitVec w → BitVec w)
    (hf : ∀ x y x' y', f (x ++ y) (x' ++ y') = g x x' ++ g y y') (hn : n % 2 = 0) (a b : Vec w n) :
    Vec.recast w n (fun j => f (Vec.recast (w + w) (n / 2) a j) (Vec.recast (w + w) (n / 2) b j))
      = fun i => g (a i) (b i) := by
  have hn' : n = 2 * (n / 2) := by omega
  funext i
  apply BitVec.eq_of_getLsbD_eq
  intro k hk
  have hi := i.isLt
  rw [Vec.recast_down rfl hn']
  simp only [hk, decide_true, Bool.true_and]
  rw [Vec.at_lt _ (by omega : i.val / 2 < n / 2), Vec.recast_up_eq hn', Vec.recast_up_eq hn', hf,
    BitVec.getLsbD_append]
  rcases Nat.mod_two_eq_zero_or_one i.val with h | h
  · have e : 2 * (i.val / 2) = i.val := by omega
    simp [h, hk, e]
  · have e : 2 * (i.val / 2) + 1 = i.val := by omega
    simp only [h, Nat.one_mul, show ¬ (w + k < w) by omega, if_false, e, Vec.at_fin,
      Nat.add_sub_cancel_left]

/-- Two-operand version when lane values are constrained. -/
theorem via_pair2_on (P : BitVec w → BitVec w → Prop)
    (f : BitVec (w + w) → BitVec (w + w) → BitVec (w + w))
    (g : BitVec w → BitVec w → BitVec w)
    (hf : ∀ x y x' y', P x x' → P y y' → f (x ++ y) (x' ++ y') = g x x' ++ g y y')
    (hn : n % 2 = 0) (a b : Vec w n) (hP : ∀ i, P (a i) (b i)) :
    Vec.recast w n (fun j => f (Vec.recast (w + w) (n / 2) a j) (Vec.recast (w + w) (n / 2) b j))
      = fun i => g (a i) (b i) := by
  have hn' : n = 2 * (n / 2) := by omega
  funext i
  apply BitVec.eq_of_getLsbD_eq
  intro k hk
  have hi := i.isLt
  rw [Vec.recast_down rfl hn']
  simp only [hk, decide_true, Bool.true_and]
  have h1 : 2 * (i.val / 2) < n := by omega
  have h2 : 2 * (i.val / 2) + 1 < n := by omega
  rw [Vec.at_lt _ (by omega : i.val / 2 < n / 2), Vec.recast_up_eq hn', Vec.recast_up_eq hn', hf,
    BitVec.getLsbD_append]
  · rcases Nat.mod_two_eq_zero_or_one i.val with h | h
    · have e : 2 * (i.val / 2) = i.val := by omega
      simp [h, hk, e]
    · have e : 2 * (i.val / 2) + 1 = i.val := by omega
      simp only [h, Nat.one_mul, show ¬ (w + k < w) by omega, if_false, e, Vec.at_fin,
        Nat.add_sub_cancel_left]
  · dsimp only; rw [Vec.at_lt _ h2, Vec.at_lt _ h2]; exact hP _
  · dsimp only; rw [Vec.at_lt _ h1, Vec.at_lt _ h1]; exact hP _

end Simdpp
