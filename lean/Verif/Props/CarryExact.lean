import Verif.Props.CarryFlt

/-!
# Running sums of integers held in floating point

As long as the sum of magnitudes is below `2 ^ 24` (`float`) or `2 ^ 53` (`double`), the running sums of integer-valued elements are exact.
-/

namespace Simdpp
open Spec Spec.Prog Spec.FProg Spec.MProg Spec.Fp

variable {f : FWd} {I : (f : FWd) → Impl f.n} {ρ : Nat → Nat → BitVec f.n}

theorem isInt_zero (f : FWd) : IsInt (0 : BitVec f.n) 0 := by
  obtain ⟨f1, f2⟩ := finite_zero (FWd.fw f) false
  have e : (mk f.n false 0 : BitVec f.n) = 0 := by cases f <;> rfl
  rw [e] at f1 f2
  exact ⟨f1, by rw [f2, Int.zero_mul]⟩

theorem natAbs_sum_le (z : Nat → Int) (n : Nat) : (∑ l ∈ Finset.range n, z l).natAbs ≤ ∑ l ∈ Finset.range n, (z l).natAbs := by
  induction n with
  | zero => exact Nat.le_refl _
  | succ n ih =>
    rw [Finset.sum_range_succ, Finset.sum_range_succ]
    exact (Int.natAbs_add_le _ _).trans (Nat.add_le_add_right ih _)

theorem part_le_nat {g : Nat → Nat} {n j k : Nat} (hn : n ≤ j + 1) (hk : j ≤ k) : ∑ i ∈ Finset.range n, g (j - i) ≤ ∑ i ∈ Finset.range (k + 1), g i := by
  calc ∑ i ∈ Finset.range n, g (j - i) ≤ ∑ i ∈ Finset.range (j + 1), g (j - i) := Finset.sum_le_sum_of_subset (Finset.range_mono hn)
    _ = ∑ i ∈ Finset.range (j + 1), g i := by
      rw [← Finset.sum_range_reflect g]
      exact Finset.sum_congr rfl fun i hi => by
        have := Finset.mem_range.1 hi
        rw [show j + 1 - 1 - i = j - i by omega]
    _ ≤ _ := Finset.sum_le_sum_of_subset (Finset.range_mono (by omega))

theorem scanF_int {z : Nat → Int} {j0 : Nat} (hj0 : j0 < 128 / f.n) (hf : ∀ i, i ≤ j0 → IsInt (ρ 0 i) (z i))
    (hb : ∑ i ∈ Finset.range (j0 + 1), (z i).natAbs < 2 ^ prec f.n) (k : Nat) (hk : k ≤ lgF f) : ∀ j, j ≤ j0 →
    IsInt (denF I ρ (scanF k) j) (∑ i ∈ Finset.range (min (2 ^ k) (j + 1)), z (j - i)) := by
  induction k with
  | zero =>
    intro j hj
    rw [show min (2 ^ 0) (j + 1) = 1 by omega, Finset.sum_range_one]
    exact hf j hj
  | succ k ih =>
    have ih := ih (by omega)
    intro j hj
    have hy : IsInt (if 2 ^ k ≤ j then denF I ρ (scanF k) (j - 2 ^ k) else 0)
        (if 2 ^ k ≤ j then ∑ i ∈ Finset.range (min (2 ^ k) (j - 2 ^ k + 1)), z (j - 2 ^ k - i) else 0) := by
      split_ifs with g
      · exact ih _ ((Nat.sub_le _ _).trans hj)
      · exact isInt_zero f
    have split : ∑ i ∈ Finset.range (min (2 ^ (k + 1)) (j + 1)), z (j - i) = ∑ i ∈ Finset.range (min (2 ^ k) (j + 1)), z (j - i) +
        if 2 ^ k ≤ j then ∑ i ∈ Finset.range (min (2 ^ k) (j - 2 ^ k + 1)), z (j - 2 ^ k - i) else 0 := by
      split_ifs with h
      · rw [show min (2 ^ (k + 1)) (j + 1) = 2 ^ k + min (2 ^ k) (j - 2 ^ k + 1) by rw [Nat.pow_succ]; omega,
          show min (2 ^ k) (j + 1) = 2 ^ k by omega, Finset.sum_range_add]
        simp only [Nat.sub_sub]
      · rw [show min (2 ^ (k + 1)) (j + 1) = min (2 ^ k) (j + 1) by rw [Nat.pow_succ]; omega, add_zero]
    have e : denF I ρ (scanF (k + 1)) j = Fp.add (denF I ρ (scanF k) j) (if 2 ^ k ≤ j then denF I ρ (scanF k) (j - 2 ^ k) else 0) := by
      have : denF I ρ (.shuf (.move_r (2 ^ k)) (scanF k) (scanF k)) j = if 2 ^ k ≤ j % (128 / f.n) then denF I ρ (scanF k) (j - 2 ^ k) else 0 := rfl
      rw [Nat.mod_eq_of_lt (by omega)] at this
      rw [← this]
      rfl
    rw [e, split]
    refine isInt_add (FWd.fw f) (ih j hj) hy ?_
    rw [← split]
    exact ((natAbs_sum_le (fun i => z (j - i)) _).trans (part_le_nat (g := fun i => (z i).natAbs) (Nat.min_le_right _ _) hj)).trans_lt hb

theorem fsum_step_int (I : (f : FWd) → Impl f.n) (A : Nat → BitVec f.n) (z : Nat → Int) (i : Nat) {j : Nat} (hj : j < 128 / f.n)
    (hc : IsInt (carried (Γ := FG f) I (128 / f.n) 1 (fsumNext f) (farr1 A) (fun _ => 0) i j : BitVec f.n) (∑ l ∈ Finset.range (i * (128 / f.n)), z l))
    (hf : ∀ l, l ≤ i * (128 / f.n) + j → IsInt (A l) (z l))
    (hb : ∑ l ∈ Finset.range (i * (128 / f.n) + j + 1), (z l).natAbs < 2 ^ prec f.n) :
    IsInt (denF I (stepVars (Γ := FG f) I (128 / f.n) 1 (fsumNext f) (farr1 A) (fun _ => 0) i) (fsumE f) j) (∑ l ∈ Finset.range (i * (128 / f.n) + j + 1), z l) := by
  have split : ∑ l ∈ Finset.range (i * (128 / f.n) + j + 1), z l = ∑ l ∈ Finset.range (j + 1), z (i * (128 / f.n) + l) + ∑ l ∈ Finset.range (i * (128 / f.n)), z l := by
    rw [Nat.add_assoc, Finset.sum_range_add z, add_comm]
  have hs := scanF_int (I := I) (ρ := stepVars (Γ := FG f) I (128 / f.n) 1 (fsumNext f) (farr1 A) (fun _ => 0) i) (z := fun l => z (i * (128 / f.n) + l)) hj
    (fun l hl => hf (i * (128 / f.n) + l) (by omega)) (by
      refine Nat.lt_of_le_of_lt ?_ hb
      rw [Nat.add_assoc, Finset.sum_range_add (fun l => (z l).natAbs)]
      exact Nat.le_add_left _ _) (lgF f) (Nat.le_refl _) j (Nat.le_refl _)
  rw [lgF_eq, show min (128 / f.n) (j + 1) = j + 1 by omega] at hs
  have er : ∑ l ∈ Finset.range (j + 1), z (i * (128 / f.n) + (j - l)) = ∑ l ∈ Finset.range (j + 1), z (i * (128 / f.n) + l) := by
    rw [← Finset.sum_range_reflect fun l => z (i * (128 / f.n) + l)]
    exact Finset.sum_congr rfl fun l hl => by
      have := Finset.mem_range.1 hl
      rw [show j + 1 - 1 - l = j - l by omega]
  rw [er] at hs
  have e : denF I (stepVars (Γ := FG f) I (128 / f.n) 1 (fsumNext f) (farr1 A) (fun _ => 0) i) (fsumE f) j =
      Fp.add (denF I (stepVars (Γ := FG f) I (128 / f.n) 1 (fsumNext f) (farr1 A) (fun _ => 0) i) (scanF (lgF f)) j)
        (carried (Γ := FG f) I (128 / f.n) 1 (fsumNext f) (farr1 A) (fun _ => 0) i j) := rfl
  rw [e, split]
  refine isInt_add (FWd.fw f) hs hc ?_
  rw [← split]
  exact (natAbs_sum_le z _).trans_lt hb

theorem fsum_carried_int (I : (f : FWd) → Impl f.n) (A : Nat → BitVec f.n) (z : Nat → Int) (i : Nat) (hf : ∀ l, l < i * (128 / f.n) → IsInt (A l) (z l))
    (hb : ∑ l ∈ Finset.range (i * (128 / f.n)), (z l).natAbs < 2 ^ prec f.n) : ∀ j, j < 128 / f.n →
    IsInt (carried (Γ := FG f) I (128 / f.n) 1 (fsumNext f) (farr1 A) (fun _ => 0) i j : BitVec f.n) (∑ l ∈ Finset.range (i * (128 / f.n)), z l) := by
  have hL := flanes2 f
  induction i with
  | zero =>
    intro j _
    rw [Nat.zero_mul, Finset.sum_range_zero]
    exact isInt_zero f
  | succ i ih =>
    intro j hj
    have em : (i + 1) * (128 / f.n) = i * (128 / f.n) + (128 / f.n - 1) + 1 := by rw [Nat.add_mul]; omega
    have lt : ∀ n, n ≤ (i + 1) * (128 / f.n) → ∑ l ∈ Finset.range n, (z l).natAbs < 2 ^ prec f.n := fun n hn =>
      Nat.lt_of_le_of_lt (Finset.sum_le_sum_of_subset (Finset.range_mono hn)) hb
    have := fsum_step_int I A z i (j := 128 / f.n - 1) (by omega) (ih (fun l hl => hf l (by omega)) (lt _ (by omega)) _ (by omega)) (fun l hl => hf l (by omega)) (lt _ (by omega))
    rw [← em] at this
    have e : carried (Γ := FG f) I (128 / f.n) 1 (fsumNext f) (farr1 A) (fun _ => 0) (i + 1) j =
        denF I (stepVars (Γ := FG f) I (128 / f.n) 1 (fsumNext f) (farr1 A) (fun _ => 0) i) (fsumE f) (j / (128 / f.n) * (128 / f.n) + (128 / f.n - 1)) := rfl
    rw [Nat.div_eq_of_lt hj, Nat.zero_mul, Nat.zero_add] at e
    rw [e]
    exact this

/-- **C71**, an instance: running sums of integer-valued `float` and `double` elements are exact while the sum of magnitudes is below `2 ^ 24` or `2 ^ 53`. -/
theorem C71_running_sum_exact {c : Cfg} (h : c.Ok) (gnuc be : Bool) (f : FWd) (E : Est) (J : Junk c (128 / f.n)) {p q cnt : Nat} (m : Mem) {A : Nat → BitVec f.n} {P : Nat}
    (hP : P = (cnt + (128 / f.n - 1)) / (128 / f.n) * (128 / f.n)) (hA : ∀ j, j < P → Holds m.byte (p + j * (f.n / 8)) (A j))
    (hp : p % 16 = 0) (hq : q % 16 = 0) (hb : m.Block p (P * (f.n / 8))) (hbq : m.Block q (P * (f.n / 8))) (hd : q ≤ p ∨ p + P * (f.n / 8) ≤ q)
    (z : Nat → Int) (hf : ∀ j, j < cnt → IsInt (A j) (z j)) (hs : ∑ l ∈ Finset.range cnt, (z l).natAbs < 2 ^ prec f.n) :
    ∃ s m', carryLoop c gnuc be E J 1 (fsumNext f) (fsumE f) (fun _ => p) q cnt (fun _ => 0) m = some (s, m') ∧ m'.ok = m.ok ∧
      (∀ j, j < cnt → ∃ y : BitVec f.n, Holds m'.byte (q + j * (f.n / 8)) y ∧ IsInt y (∑ l ∈ Finset.range (j + 1), z l)) ∧
      ∀ a, a < q ∨ q + cnt * (f.n / 8) ≤ a → m'.byte a = m.byte a := by
  have hL := flanes2 f
  have hB := fbytes c f
  obtain ⟨I, -, run⟩ := C71_loop h (128 / f.n) E
  have ez : (Vec.at_ (fun _ => 0 : Vec f.n (128 / f.n))) = fun _ => 0 := funext fun j => by unfold Vec.at_; split_ifs <;> rfl
  obtain ⟨s, m', e1, -, e2, e3, e4⟩ := run gnuc (FG f) (.flt f) 1 (fsumNext f) (fsumE f) be J (p := fun _ => p) (q := q) (cnt := cnt) m
    (A := farr1 A) (P := P) (fun _ => 0) hP (flen c f) (fun _ _ => flen c f) (fun x hx j hj => by
      obtain rfl : x = 0 := by omega
      exact hA j hj) (fun x hx j => if_neg (by omega)) (fun _ _ => hB ▸ hp) (hB ▸ hq) (fun _ _ => hb) hbq
    (fun _ _ => hd.imp (fun g => ⟨g, Nat.le_refl _⟩) Or.inl) (fun i _ => fsum_ok)
  refine ⟨s, m', e1, e2, fun j hj => ?_, e4⟩
  have hm := Nat.div_add_mod' j (128 / f.n)
  have hr := Nat.mod_lt j (show 0 < 128 / f.n by omega)
  have := e3 (j / (128 / f.n)) (j % (128 / f.n)) hr (by omega)
  rw [ez, hm] at this
  have lt : ∀ n, n ≤ cnt → ∑ l ∈ Finset.range n, (z l).natAbs < 2 ^ prec f.n := fun n hn =>
    Nat.lt_of_le_of_lt (Finset.sum_le_sum_of_subset (Finset.range_mono hn)) hs
  have e := fsum_step_int I A z (j / (128 / f.n)) hr (fsum_carried_int I A z _ (fun l hl => hf l (by omega)) (lt _ (by omega)) _ hr) (fun l hl => hf l (by omega)) (lt _ (by omega))
  rw [hm] at e
  exact ⟨_, this, e⟩

/-- Six ones on SSE2: the last sum is exactly 6. -/
example (m : Mem) (hm : ∀ a, m.ok a = true) (hA : ∀ j, j < 8 → Holds m.byte (64 + j * 4) 0x3f800000#32) (E : Est) (J : Junk Cfg.sse2Only 4) :
    ∃ s m', carryLoop Cfg.sse2Only true false E J 1 (fsumNext .f32) (fsumE .f32) (fun _ => 64) 64 6 (fun _ => 0) m = some (s, m') ∧
      ∃ y : BitVec 32, Holds m'.byte (64 + 5 * 4) y ∧ IsInt y 6 := by
  obtain ⟨s, m', e1, -, e2, -⟩ := C71_running_sum_exact Cfg.sse2Only_ok true false .f32 E J (p := 64) (q := 64) (cnt := 6) (P := 8) (A := fun _ => 0x3f800000#32) m rfl hA
    (by decide) (by decide) (fun _ _ _ => hm _) (fun _ _ _ => hm _) (Or.inl (Nat.le_refl _)) (fun _ => 1)
    (fun _ _ => ⟨(by decide +kernel : isFinite 0x3f800000#32 = true), (by decide +kernel : num 0x3f800000#32 = 1 * 2 ^ 149)⟩) (by decide)
  obtain ⟨y, y1, y2⟩ := e2 5 (by decide)
  exact ⟨s, m', e1, y, y1, y2⟩

end Simdpp
