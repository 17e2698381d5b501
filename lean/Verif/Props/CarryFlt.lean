import Verif.Props.CarrySum
import Verif.Props.FSum

/-!
# C71, instances: running sums of floating-point numbers
-/

namespace Simdpp
open Spec Spec.Prog Spec.FProg Spec.MProg Spec.Fp

attribute [local irreducible] Fp.mul Fp.fma Fp.sub Fp.add Fp.round Fp.div Fp.sqrt Fp.conv Fp.ofInt Fp.truncInt

variable {f : FWd}

/-- `128 / f.n` lanes are `2 ^ lgF f`. -/
def lgF : FWd → Nat
  | .f32 => 2
  | .f64 => 1

/-- Vectors of floating-point numbers. -/
abbrev FG (f : FWd) : Nat → ETy := fun _ => .flt f

/-- `a + b`. -/
def addF (a b : SExp (FG f) (.flt f)) : SExp (FG f) (.flt f) :=
  .lanes 2 (FG f) (.flts (f := f) 2 (.op2 .add (.var 0) (.var 1)) fun x => .var x.val) fun x => if x.val = 0 then a else b

/-- The running sums inside a block: `x += move_r<1>(x); x += move_r<2>(x);`, in `k` steps. -/
def scanF : Nat → SExp (FG f) (.flt f)
  | 0 => .var 0
  | k + 1 => addF (scanF k) (.shuf (.move_r (2 ^ k)) (scanF k) (scanF k))

/-- `x = scan(load(p)); y = x + s;` -/
def fsumE (f : FWd) : SExp (FG f) (.flt f) := addF (scanF (lgF f)) (.var 1)

/-- `s = splat<last>(y)`. -/
def fsumNext (f : FWd) : SExp (FG f) (.flt f) := .shuf (.splat (128 / f.n - 1)) (fsumE f) (fsumE f)

theorem flen (c : Cfg) (f : FWd) : c.FLen f.n (128 / f.n) := Or.inl ⟨.r128, rfl, rfl⟩

theorem fbytes (c : Cfg) (f : FWd) : (c.regK .flt f.n (128 / f.n)).bytes = 16 := by
  show (c.regF f.n (Reg.r128.lanes f.n)).bytes = 16
  unfold Cfg.regF
  rw [if_pos rfl]
  rfl

theorem lgF_eq (f : FWd) : 2 ^ lgF f = 128 / f.n := by cases f <;> rfl

theorem flanes2 (f : FWd) : 2 ≤ 128 / f.n := by cases f <;> decide

variable {I : (f : FWd) → Impl f.n} {ρ : Nat → Nat → BitVec f.n}

/-- The meaning, with the width spelled out. -/
def denF (I : (f : FWd) → Impl f.n) (ρ : Nat → Nat → BitVec f.n) (a : SExp (FG f) (.flt f)) (j : Nat) : BitVec f.n := a.den I ρ j

theorem addF_den (a b : SExp (FG f) (.flt f)) (j : Nat) : denF I ρ (addF a b) j = Fp.add (denF I ρ a j) (denF I ρ b j) := rfl

theorem addF_ok {c : Cfg} {N P : Nat} (hN : c.FLen f.n N) {a b : SExp (FG f) (.flt f)} (oa : a.Ok c N I P ρ) (ob : b.Ok c N I P ρ) : (addF a b).Ok c N I P ρ :=
  ⟨fun x => match x with
    | ⟨0, _⟩ => oa
    | ⟨1, _⟩ => ob, hN, fun _ => hN, trivial, trivial, trivial⟩

theorem scanF_ok {c : Cfg} {N P : Nat} (hN : c.FLen f.n N) : (k : Nat) → k ≤ lgF f → (scanF k : SExp (FG f) (.flt f)).Ok c N I P ρ
  | 0, _ => hN
  | k + 1, hk => by
    have o := scanF_ok (P := P) hN k (by omega)
    refine addF_ok hN o ⟨o, o, ?_⟩
    show 2 ^ k ≤ 128 / f.n
    rw [← lgF_eq]
    exact Nat.pow_le_pow_right (by decide) (by omega)

theorem fsum_ok {c : Cfg} {P : Nat} : (fsumE f).Ok c (128 / f.n) I P ρ ∧ (fsumNext f).Ok c (128 / f.n) I P ρ := by
  have o : (fsumE f).Ok c (128 / f.n) I P ρ := addF_ok (flen c f) (scanF_ok (flen c f) _ (Nat.le_refl _)) (flen c f)
  exact ⟨o, o, o, Nat.sub_lt (Nat.lt_of_lt_of_le (by decide) (flanes2 f)) (by decide)⟩

theorem part_le {g : Nat → ℝ} (hg : ∀ i, 0 ≤ g i) {n j k : Nat} (hn : n ≤ j + 1) (hk : j ≤ k) : ∑ i ∈ Finset.range n, g (j - i) ≤ ∑ i ∈ Finset.range (k + 1), g i := by
  calc ∑ i ∈ Finset.range n, g (j - i) ≤ ∑ i ∈ Finset.range (j + 1), g (j - i) :=
        Finset.sum_le_sum_of_subset_of_nonneg (Finset.range_mono hn) fun _ _ _ => hg _
    _ = ∑ i ∈ Finset.range (j + 1), g i := by
        rw [← Finset.sum_range_reflect g]
        exact Finset.sum_congr rfl fun i hi => by
          have := Finset.mem_range.1 hi
          rw [show j + 1 - 1 - i = j - i by omega]
    _ ≤ _ := Finset.sum_le_sum_of_subset_of_nonneg (Finset.range_mono (by omega)) fun _ _ _ => hg _

theorem FWd.fw (f : FWd) : FW f.n := by cases f <;> simp [FW, FWd.n]

theorem apprZ (d : Nat) : Appr d (0 : BitVec f.n) 0 0 := by
  have hf : isFinite (0 : BitVec f.n) = true := by cases f <;> decide +kernel
  have hr : real (0 : BitVec f.n) = 0 := by
    have : num (0 : BitVec f.n) = 0 := by cases f <;> decide +kernel
    unfold real; rw [this]; simp
  have := Appr.exact hf d
  rwa [hr, abs_zero] at this

/-- The sum of the last `2 ^ k` elements up to `j`, after `k` roundings. -/
theorem scanF_appr {j0 : Nat} (hj0 : j0 < 128 / f.n) (hf : ∀ i, i ≤ j0 → isFinite (ρ 0 i) = true)
    (hb : (1 + eps f.n) ^ lgF f * ∑ i ∈ Finset.range (j0 + 1), |real (ρ 0 i)| < huge f.n) (k : Nat) (hk : k ≤ lgF f) : ∀ j, j ≤ j0 →
    Appr k (denF I ρ (scanF k) j) (∑ i ∈ Finset.range (min (2 ^ k) (j + 1)), real (ρ 0 (j - i))) (∑ i ∈ Finset.range (min (2 ^ k) (j + 1)), |real (ρ 0 (j - i))|) := by
  induction k with
  | zero =>
    intro j hj
    rw [show min (2 ^ 0) (j + 1) = 1 by omega, Finset.sum_range_one, Finset.sum_range_one]
    exact Appr.exact (hf j hj) 0
  | succ k ih =>
    have ih := ih (by omega)
    intro j hj
    have bnd : ∀ n, n ≤ j + 1 → (1 + eps f.n) ^ k * ∑ i ∈ Finset.range n, |real (ρ 0 (j - i))| < huge f.n := fun n hn =>
      lt_of_le_of_lt (mul_le_mul (pow_eps_mono _ (by omega)) (part_le (g := fun i => |real (ρ 0 i)|) (fun _ => abs_nonneg _) hn hj)
        (Finset.sum_nonneg fun _ _ => abs_nonneg _) (by linarith [one_le_pow_eps f.n (lgF f)])) hb
    have hy : Appr k (if 2 ^ k ≤ j then denF I ρ (scanF k) (j - 2 ^ k) else 0)
        (if 2 ^ k ≤ j then ∑ i ∈ Finset.range (min (2 ^ k) (j - 2 ^ k + 1)), real (ρ 0 (j - 2 ^ k - i)) else 0)
        (if 2 ^ k ≤ j then ∑ i ∈ Finset.range (min (2 ^ k) (j - 2 ^ k + 1)), |real (ρ 0 (j - 2 ^ k - i))| else 0) := by
      split_ifs with g
      · exact ih _ ((Nat.sub_le _ _).trans hj)
      · exact apprZ k
    have split : ∀ g : Nat → ℝ, ∑ i ∈ Finset.range (min (2 ^ (k + 1)) (j + 1)), g (j - i) = ∑ i ∈ Finset.range (min (2 ^ k) (j + 1)), g (j - i) +
        if 2 ^ k ≤ j then ∑ i ∈ Finset.range (min (2 ^ k) (j - 2 ^ k + 1)), g (j - 2 ^ k - i) else 0 := fun g => by
      split_ifs with h
      · rw [show min (2 ^ (k + 1)) (j + 1) = 2 ^ k + min (2 ^ k) (j - 2 ^ k + 1) by rw [Nat.pow_succ]; omega,
          show min (2 ^ k) (j + 1) = 2 ^ k by omega, Finset.sum_range_add]
        simp only [Nat.sub_sub]
      · rw [show min (2 ^ (k + 1)) (j + 1) = min (2 ^ k) (j + 1) by rw [Nat.pow_succ]; omega, add_zero]
    have e : denF I ρ (scanF (k + 1)) j = Fp.add (denF I ρ (scanF k) j) (if 2 ^ k ≤ j then denF I ρ (scanF k) (j - 2 ^ k) else 0) := by
      have : denF I ρ (.shuf (.move_r (2 ^ k)) (scanF k) (scanF k)) j = if 2 ^ k ≤ j % (128 / f.n) then denF I ρ (scanF k) (j - 2 ^ k) else 0 := rfl
      rw [Nat.mod_eq_of_lt (by omega)] at this
      rw [← this]
      rfl
    rw [e, split fun i => real (ρ 0 i), split fun i => |real (ρ 0 i)|]
    refine Appr.add (FWd.fw f) (ih j hj) hy ?_
    rw [← split fun i => |real (ρ 0 i)|]
    exact bnd _ (Nat.min_le_right _ _)

theorem scanF_all {j : Nat} (hj : j < 128 / f.n) (hf : ∀ i, i ≤ j → isFinite (ρ 0 i) = true)
    (hb : (1 + eps f.n) ^ lgF f * ∑ i ∈ Finset.range (j + 1), |real (ρ 0 i)| < huge f.n) :
    Appr (lgF f) (denF I ρ (scanF (lgF f)) j) (∑ i ∈ Finset.range (j + 1), real (ρ 0 i)) (∑ i ∈ Finset.range (j + 1), |real (ρ 0 i)|) := by
  have := scanF_appr (I := I) hj hf hb (lgF f) (Nat.le_refl _) j (Nat.le_refl _)
  have e : ∀ g : Nat → ℝ, ∑ i ∈ Finset.range (j + 1), g (j - i) = ∑ i ∈ Finset.range (j + 1), g i := fun g => by
    rw [← Finset.sum_range_reflect g]
    exact Finset.sum_congr rfl fun i hi => by
      have := Finset.mem_range.1 hi
      rw [show j + 1 - 1 - i = j - i by omega]
  rw [lgF_eq, show min (128 / f.n) (j + 1) = j + 1 by omega, e fun i => real (ρ 0 i), e fun i => |real (ρ 0 i)|] at this
  exact this

/-- The array in the form the loop theorem takes. -/
def farr1 (A : Nat → BitVec f.n) : Nat → Nat → BitVec f.n := fun x j => if x = 0 then A j else 0

theorem fsum_step (I : (f : FWd) → Impl f.n) (A : Nat → BitVec f.n) (i : Nat) {j : Nat} (hj : j < 128 / f.n)
    (hc : Appr (lgF f + i) (carried (Γ := FG f) I (128 / f.n) 1 (fsumNext f) (farr1 A) (fun _ => 0) i j)
      (∑ l ∈ Finset.range (i * (128 / f.n)), real (A l)) (∑ l ∈ Finset.range (i * (128 / f.n)), |real (A l)|))
    (hf : ∀ l, l ≤ i * (128 / f.n) + j → isFinite (A l) = true)
    (hb : (1 + eps f.n) ^ (lgF f + i) * ∑ l ∈ Finset.range (i * (128 / f.n) + j + 1), |real (A l)| < huge f.n) :
    Appr (lgF f + i + 1) (denF I (stepVars (Γ := FG f) I (128 / f.n) 1 (fsumNext f) (farr1 A) (fun _ => 0) i) (fsumE f) j)
      (∑ l ∈ Finset.range (i * (128 / f.n) + j + 1), real (A l)) (∑ l ∈ Finset.range (i * (128 / f.n) + j + 1), |real (A l)|) := by
  have split : ∀ g : Nat → ℝ, ∑ l ∈ Finset.range (i * (128 / f.n) + j + 1), g l =
      ∑ l ∈ Finset.range (j + 1), g (i * (128 / f.n) + l) + ∑ l ∈ Finset.range (i * (128 / f.n)), g l := fun g => by
    rw [Nat.add_assoc, Finset.sum_range_add g, add_comm]
  have hs := scanF_all (I := I) (ρ := stepVars (Γ := FG f) I (128 / f.n) 1 (fsumNext f) (farr1 A) (fun _ => 0) i) hj (fun l hl => hf (i * (128 / f.n) + l) (by omega)) (by
    refine lt_of_le_of_lt (mul_le_mul (pow_eps_mono _ (Nat.le_add_right _ i)) ?_ (Finset.sum_nonneg fun _ _ => abs_nonneg _) (by linarith [one_le_pow_eps f.n (lgF f + i)])) hb
    rw [split fun l => |real (A l)|]
    exact le_add_of_nonneg_right (Finset.sum_nonneg fun _ _ => abs_nonneg _))
  have e : denF I (stepVars (Γ := FG f) I (128 / f.n) 1 (fsumNext f) (farr1 A) (fun _ => 0) i) (fsumE f) j =
      Fp.add (denF I (stepVars (Γ := FG f) I (128 / f.n) 1 (fsumNext f) (farr1 A) (fun _ => 0) i) (scanF (lgF f)) j)
        (carried (Γ := FG f) I (128 / f.n) 1 (fsumNext f) (farr1 A) (fun _ => 0) i j) := rfl
  rw [e, split fun l => real (A l), split fun l => |real (A l)|]
  refine Appr.add (FWd.fw f) (hs.mono (Nat.le_add_right _ i)) hc ?_
  rw [split fun l => |real (A l)|] at hb
  exact hb

theorem fsum_carried (I : (f : FWd) → Impl f.n) (A : Nat → BitVec f.n) (i : Nat) (hf : ∀ l, l < i * (128 / f.n) → isFinite (A l) = true)
    (hb : (1 + eps f.n) ^ (lgF f + i) * ∑ l ∈ Finset.range (i * (128 / f.n)), |real (A l)| < huge f.n) : ∀ j, j < 128 / f.n →
    Appr (lgF f + i) (carried (Γ := FG f) I (128 / f.n) 1 (fsumNext f) (farr1 A) (fun _ => 0) i j)
      (∑ l ∈ Finset.range (i * (128 / f.n)), real (A l)) (∑ l ∈ Finset.range (i * (128 / f.n)), |real (A l)|) := by
  have hL := flanes2 f
  induction i with
  | zero =>
    intro j _
    rw [Nat.zero_mul, Finset.sum_range_zero, Finset.sum_range_zero]
    exact apprZ _
  | succ i ih =>
    intro j hj
    have em : (i + 1) * (128 / f.n) = i * (128 / f.n) + (128 / f.n - 1) + 1 := by rw [Nat.add_mul]; omega
    have lt : ∀ n, n ≤ (i + 1) * (128 / f.n) → (1 + eps f.n) ^ (lgF f + i) * ∑ l ∈ Finset.range n, |real (A l)| < huge f.n := fun n hn =>
      lt_of_le_of_lt (mul_le_mul (pow_eps_mono _ (by omega)) (Finset.sum_le_sum_of_subset_of_nonneg (Finset.range_mono hn) fun _ _ _ => abs_nonneg _)
        (Finset.sum_nonneg fun _ _ => abs_nonneg _) (by linarith [one_le_pow_eps f.n (lgF f + (i + 1))])) hb
    have := fsum_step I A i (j := 128 / f.n - 1) (by omega) (ih (fun l hl => hf l (by omega)) (lt _ (by omega)) _ (by omega)) (fun l hl => hf l (by omega)) (lt _ (by omega))
    rw [← em] at this
    have e : carried (Γ := FG f) I (128 / f.n) 1 (fsumNext f) (farr1 A) (fun _ => 0) (i + 1) j =
        denF I (stepVars (Γ := FG f) I (128 / f.n) 1 (fsumNext f) (farr1 A) (fun _ => 0) i) (fsumE f) (j / (128 / f.n) * (128 / f.n) + (128 / f.n - 1)) := rfl
    rw [Nat.div_eq_of_lt hj, Nat.zero_mul, Nat.zero_add] at e
    rw [e]
    exact this

/-- **C71**, an instance: running sums of `float` and `double` arrays. Every result is within `(1 + eps)^d - 1` of the exact sum, relative to the sum of magnitudes, where `d` is
the number of vectors up to the element plus 2 (`float`) or 1 (`double`): less than the number of additions of the scalar loop. -/
theorem C71_running_sum_flt {c : Cfg} (h : c.Ok) (gnuc be : Bool) (f : FWd) (E : Est) (J : Junk c (128 / f.n)) {p q cnt : Nat} (m : Mem) {A : Nat → BitVec f.n} {P : Nat}
    (hP : P = (cnt + (128 / f.n - 1)) / (128 / f.n) * (128 / f.n)) (hA : ∀ j, j < P → Holds m.byte (p + j * (f.n / 8)) (A j))
    (hp : p % 16 = 0) (hq : q % 16 = 0) (hb : m.Block p (P * (f.n / 8))) (hbq : m.Block q (P * (f.n / 8))) (hd : q ≤ p ∨ p + P * (f.n / 8) ≤ q)
    (hf : ∀ j, j < cnt → isFinite (A j) = true)
    (hs : (1 + eps f.n) ^ (lgF f + cnt / (128 / f.n)) * ∑ l ∈ Finset.range cnt, |real (A l)| < huge f.n) :
    ∃ s m', carryLoop c gnuc be E J 1 (fsumNext f) (fsumE f) (fun _ => p) q cnt (fun _ => 0) m = some (s, m') ∧ m'.ok = m.ok ∧
      (∀ j, j < cnt → ∃ y : BitVec f.n, Holds m'.byte (q + j * (f.n / 8)) y ∧ isFinite y = true ∧
        |real y - ∑ l ∈ Finset.range (j + 1), real (A l)| ≤ ((1 + eps f.n) ^ (lgF f + j / (128 / f.n) + 1) - 1) * ∑ l ∈ Finset.range (j + 1), |real (A l)|) ∧
      ∀ a, a < q ∨ q + cnt * (f.n / 8) ≤ a → m'.byte a = m.byte a := by
  have hL := flanes2 f
  have hB := fbytes c f
  obtain ⟨I, -, run⟩ := C71_loop h (128 / f.n) E
  have ez : (Vec.at_ (fun _ => 0 : Vec f.n (128 / f.n))) = fun _ => 0 := funext fun j => by unfold Vec.at_; split_ifs <;> rfl
  obtain ⟨s, m', e1, -, e2, e3, e4⟩ := run gnuc (FG f) (.flt f) 1 (fsumNext f) (fsumE f) be J (p := fun _ => p) (q := q) (cnt := cnt) m
    (A := farr1 A) (P := P) (fun _ => 0) hP (flen c f) (fun _ _ => flen c f) (fun x hx j hj => by
      obtain rfl : x = 0 := by omega
      exact hA j hj) (fun x hx j => if_neg (by omega)) (fun _ _ => hB ▸ hp) (hB ▸ hq) (fun _ _ => hb) hbq
    (fun _ _ => hd.imp (fun g => ⟨g, Nat.le_refl _⟩) Or.inl) (fun i _ => fsum_ok)
  refine ⟨s, m', e1, e2, fun j hj => ?_, e4⟩
  have hm := Nat.div_add_mod' j (128 / f.n)
  have hr := Nat.mod_lt j (show 0 < 128 / f.n by omega)
  have := e3 (j / (128 / f.n)) (j % (128 / f.n)) hr (by omega)
  rw [ez, hm] at this
  have lt : ∀ n, n ≤ cnt → (1 + eps f.n) ^ (lgF f + j / (128 / f.n)) * ∑ l ∈ Finset.range n, |real (A l)| < huge f.n := fun n hn =>
    lt_of_le_of_lt (mul_le_mul (pow_eps_mono _ (Nat.add_le_add_left (Nat.div_le_div_right (by omega)) _))
      (Finset.sum_le_sum_of_subset_of_nonneg (Finset.range_mono hn) fun _ _ _ => abs_nonneg _)
      (Finset.sum_nonneg fun _ _ => abs_nonneg _) (by linarith [one_le_pow_eps f.n (lgF f + cnt / (128 / f.n))])) hs
  have e := fsum_step I A (j / (128 / f.n)) hr (fsum_carried I A _ (fun l hl => hf l (by omega)) (lt _ (by omega)) _ hr) (fun l hl => hf l (by omega)) (lt _ (by omega))
  rw [hm] at e
  exact ⟨_, this, e.fin, e.err⟩

/-- Six ones in place on SSE2: the hypotheses hold. -/
example (m : Mem) (hm : ∀ a, m.ok a = true) (hA : ∀ j, j < 8 → Holds m.byte (64 + j * 4) 0x3f800000#32) (E : Est) (J : Junk Cfg.sse2Only 4) :
    ∃ s m', carryLoop Cfg.sse2Only true false E J 1 (fsumNext .f32) (fsumE .f32) (fun _ => 64) 64 6 (fun _ => 0) m = some (s, m') ∧
      ∃ y : BitVec 32, Holds m'.byte (64 + 5 * 4) y ∧ |real y - 6| ≤ ((1 + eps 32) ^ 4 - 1) * 6 := by
  have e : real 0x3f800000#32 = 1 := by
    refine real_of_numW ?_
    rw [(by decide +kernel : num 0x3f800000#32 = 2 ^ 149), show unit 32 = 149 from rfl]
    push_cast; ring
  obtain ⟨s, m', e1, -, e2, -⟩ := C71_running_sum_flt Cfg.sse2Only_ok true false .f32 E J (p := 64) (q := 64) (cnt := 6) (P := 8) (A := fun _ => 0x3f800000#32) m rfl hA
    (by decide) (by decide) (fun _ _ _ => hm _) (fun _ _ _ => hm _) (Or.inl (Nat.le_refl _)) (fun _ _ => (by decide +kernel : isFinite 0x3f800000#32 = true)) (by
      show (1 + eps 32) ^ (2 + 6 / 4) * ∑ l ∈ Finset.range 6, |real 0x3f800000#32| < huge 32
      rw [e]
      unfold eps huge
      rw [show prec 32 = 24 from rfl]
      norm_num)
  obtain ⟨y, y1, -, y2⟩ := e2 5 (by decide)
  refine ⟨s, m', e1, y, y1, ?_⟩
  change |real y - ∑ l ∈ Finset.range 6, real 0x3f800000#32| ≤ ((1 + eps 32) ^ (2 + 5 / 4 + 1) - 1) * ∑ l ∈ Finset.range 6, |real 0x3f800000#32| at y2
  rw [e] at y2
  norm_num at y2
  exact y2

end Simdpp
