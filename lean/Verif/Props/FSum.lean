import Verif.Props.FpRelW
import Verif.Props.FReduce
import Verif.Props.ArrRed

/-!
# C62: accuracy of floating-point sums and products over a vector or an array

The order in which `reduce_add` and `reduce_mul` combine the lanes depends on the build (C48), so the result does too. Whatever the order, the
result of `N` lanes is within the classical bound for `N - 1` roundings.
-/

namespace Simdpp
open Spec Spec.Fp Spec.Flt Spec.Prog Spec.FProg Spec.MProg
attribute [local irreducible] Fp.add Fp.mul Fp.round

variable {w N : Nat}

/-- `x` is the sum `S` of numbers whose magnitudes add up to `A`, up to `d` roundings. -/
structure Appr (d : Nat) (x : BitVec w) (S A : ℝ) : Prop where
  fin : isFinite x = true
  abs : |S| ≤ A
  err : |real x - S| ≤ ((1 + eps w) ^ d - 1) * A

theorem one_le_pow_eps (w d : Nat) : (1 : ℝ) ≤ (1 + eps w) ^ d := one_le_pow₀ (by linarith [eps_pos w])

theorem pow_eps_mono (w : Nat) {d e : Nat} (h : d ≤ e) : (1 + eps w : ℝ) ^ d ≤ (1 + eps w) ^ e :=
  pow_le_pow_right₀ (by linarith [eps_pos w]) h

theorem Appr.mono {d e : Nat} {x : BitVec w} {S A : ℝ} (h : Appr d x S A) (hd : d ≤ e) : Appr e x S A :=
  ⟨h.fin, h.abs, h.err.trans (mul_le_mul_of_nonneg_right (by linarith [pow_eps_mono w hd]) ((abs_nonneg _).trans h.abs))⟩

theorem Appr.exact {x : BitVec w} (hx : isFinite x = true) (d : Nat) : Appr d x (real x) |real x| :=
  ⟨hx, le_refl _, by
    rw [sub_self, abs_zero]
    exact mul_nonneg (by linarith [one_le_pow_eps w d]) (abs_nonneg _)⟩

theorem Appr.add (hw : FW w) {d : Nat} {x y : BitVec w} {S A T B : ℝ} (hx : Appr d x S A) (hy : Appr d y T B) (hb : (1 + eps w) ^ d * (A + B) < huge w) :
    Appr (d + 1) (Fp.add x y) (S + T) (A + B) := by
  have hA : 0 ≤ A := (abs_nonneg _).trans hx.abs
  have hB : 0 ≤ B := (abs_nonneg _).trans hy.abs
  have hST : |S + T| ≤ A + B := (abs_add_le S T).trans (add_le_add hx.abs hy.abs)
  have he : |real x + real y - (S + T)| ≤ ((1 + eps w) ^ d - 1) * (A + B) := by
    have : real x + real y - (S + T) = (real x - S) + (real y - T) := by ring
    rw [this, mul_add]
    exact (abs_add_le _ _).trans (add_le_add hx.err hy.err)
  have hs : |real x + real y| ≤ (1 + eps w) ^ d * (A + B) := by
    have : real x + real y = (real x + real y - (S + T)) + (S + T) := by ring
    rw [this]
    refine (abs_add_le _ _).trans ?_
    linarith
  obtain ⟨f, ε, hε, e⟩ := add_relW hw hx.fin hy.fin (lt_of_le_of_lt hs hb)
  refine ⟨f, hST, ?_⟩
  rw [e, show (real x + real y) * (1 + ε) - (S + T) = (real x + real y - (S + T)) + ε * (real x + real y) by ring]
  refine (abs_add_le _ _).trans ?_
  rw [abs_mul]
  have h1 : |ε| * |real x + real y| ≤ eps w * ((1 + eps w) ^ d * (A + B)) := mul_le_mul hε hs (abs_nonneg _) (eps_pos w).le
  have h2 : ((1 + eps w) ^ (d + 1) - 1) * (A + B) = ((1 + eps w) ^ d - 1) * (A + B) + eps w * ((1 + eps w) ^ d * (A + B)) := by rw [pow_succ]; ring
  linarith

theorem Tree.leaves_pos (t : Tree) : 1 ≤ t.leaves.length := by
  induction t with
  | leaf i => simp [Tree.leaves]
  | node l r hl hr => simp only [Tree.leaves, List.length_append]; omega

theorem tree_appr (hw : FW w) {f : Nat → BitVec w} {d : Nat} {S A : Nat → ℝ} (t : Tree) (hf : ∀ i ∈ t.leaves, Appr d (f i) (S i) (A i))
    (hb : (1 + eps w) ^ (d + (t.leaves.length - 1)) * (t.leaves.map A).sum < huge w) :
    Appr (d + (t.leaves.length - 1)) (t.eval Fp.add f) (t.leaves.map S).sum (t.leaves.map A).sum := by
  induction t with
  | leaf i => simpa [Tree.leaves, Tree.eval] using hf i (by simp [Tree.leaves])
  | node l r hl hr =>
    have pl := Tree.leaves_pos l
    have pr := Tree.leaves_pos r
    simp only [Tree.leaves, List.map_append, List.sum_append, List.length_append] at hb ⊢
    have posS : ∀ t : Tree, (∀ i ∈ t.leaves, Appr d (f i) (S i) (A i)) → 0 ≤ (t.leaves.map A).sum := fun t ht => by
      refine List.sum_nonneg fun x hx => ?_
      obtain ⟨i, hi, rfl⟩ := List.mem_map.1 hx
      exact (abs_nonneg _).trans (ht i hi).abs
    have hfl : ∀ i ∈ l.leaves, Appr d (f i) (S i) (A i) := fun i hi => hf i (by simp [Tree.leaves, hi])
    have hfr : ∀ i ∈ r.leaves, Appr d (f i) (S i) (A i) := fun i hi => hf i (by simp [Tree.leaves, hi])
    have sl := posS l hfl
    have sr := posS r hfr
    have lt : ∀ {e : Nat} {x : ℝ}, e ≤ d + (l.leaves.length + r.leaves.length - 1) → 0 ≤ x → x ≤ (l.leaves.map A).sum + (r.leaves.map A).sum →
        (1 + eps w) ^ e * x < huge w := fun {e x} he hx hle =>
      lt_of_le_of_lt (mul_le_mul (pow_eps_mono w he) hle hx (by linarith [one_le_pow_eps w (d + (l.leaves.length + r.leaves.length - 1))])) hb
    have hl' := (hl hfl (lt (by omega) sl (by linarith))).mono (e := d + (l.leaves.length + r.leaves.length - 2)) (by omega)
    have hr' := (hr hfr (lt (by omega) sr (by linarith))).mono (e := d + (l.leaves.length + r.leaves.length - 2)) (by omega)
    have := Appr.add hw hl' hr' (lt (by omega) (by linarith) (le_refl _))
    rw [show d + (l.leaves.length + r.leaves.length - 2) + 1 = d + (l.leaves.length + r.leaves.length - 1) by omega] at this
    exact this

theorem perm_sum {t : Tree} (ht : t.leaves.Perm (List.range N)) (f : Nat → ℝ) : (t.leaves.map f).sum = ∑ i : Fin N, f i.val := by
  rw [(ht.map f).sum_eq, Finset.sum_range f |>.symm]
  rfl

theorem red_appr (hw : FW w) {f : Vec w N → Option (BitVec w)} (hf : ∃ t : Tree, t.leaves.Perm (List.range N) ∧ ∀ a : Vec w N, f a = some (t.eval Fp.add a.at_))
    (a : Vec w N) {d : Nat} {S A : Nat → ℝ} (ha : ∀ i : Fin N, Appr d (a i) (S i.val) (A i.val))
    (hb : (1 + eps w) ^ (d + (N - 1)) * ∑ i : Fin N, A i.val < huge w) :
    ∃ x, f a = some x ∧ Appr (d + (N - 1)) x (∑ i : Fin N, S i.val) (∑ i : Fin N, A i.val) := by
  obtain ⟨t, ht, p⟩ := hf
  have hl : t.leaves.length = N := by rw [ht.length_eq, List.length_range]
  refine ⟨_, p a, ?_⟩
  have := tree_appr hw (f := a.at_) (d := d) (S := S) (A := A) t (fun i hi => by
    have hi' : i < N := List.mem_range.1 (ht.mem_iff.1 hi)
    rw [Vec.at_lt _ hi']
    exact ha ⟨i, hi'⟩) (by rw [hl, perm_sum ht]; exact hb)
  rwa [hl, perm_sum ht, perm_sum ht] at this

/-! ### Products -/

/-- `x` is the product `P` up to `d` roundings. -/
structure PAppr (d : Nat) (x : BitVec w) (P : ℝ) : Prop where
  fin : isFinite x = true
  err : ∃ θ : ℝ, (1 - eps w) ^ d ≤ θ ∧ θ ≤ (1 + eps w) ^ d ∧ real x = P * θ

theorem one_sub_eps (hw : FW w) : 0 < 1 - eps w ∧ 1 - eps w ≤ 1 := ⟨by linarith [eps_le hw], by linarith [eps_pos w]⟩

theorem PAppr.mul (hw : FW w) {d e D : Nat} {x y z : BitVec w} {P Q m M : ℝ} (hx : PAppr d x P) (hy : PAppr e y Q) (hD : d + e ≤ D)
    (hm : m ≤ |P * Q|) (hM : |P * Q| ≤ M) (h1 : tiny w ≤ (1 - eps w) ^ D * m) (h2 : (1 + eps w) ^ D * M < huge w)
    (hz : SameUpToZero z (Fp.mul x y)) : PAppr (d + e + 1) z (P * Q) := by
  obtain ⟨p0, p1⟩ := one_sub_eps hw
  obtain ⟨θ, t1, t2, ex⟩ := hx.err
  obtain ⟨η, n1, n2, ey⟩ := hy.err
  have tp : 0 < θ := lt_of_lt_of_le (pow_pos p0 _) t1
  have np : 0 < η := lt_of_lt_of_le (pow_pos p0 _) n1
  have lo : (1 - eps w) ^ (d + e) ≤ θ * η := by rw [pow_add]; exact mul_le_mul t1 n1 (pow_pos p0 _).le tp.le
  have hi : θ * η ≤ (1 + eps w) ^ (d + e) := by rw [pow_add]; exact mul_le_mul t2 n2 np.le ((tp.le).trans t2)
  have exy : real x * real y = P * Q * (θ * η) := by rw [ex, ey]; ring
  have eabs : |real x * real y| = |P * Q| * (θ * η) := by rw [exy, abs_mul, abs_of_pos (mul_pos tp np)]
  have hmpos : 0 < m := by
    by_contra g
    have : (1 - eps w) ^ D * m ≤ 0 := mul_nonpos_of_nonneg_of_nonpos (pow_pos p0 _).le (not_lt.1 g)
    linarith [tiny_pos w]
  have hMpos : 0 < M := lt_of_lt_of_le hmpos (hm.trans hM)
  have b1 : tiny w ≤ |real x * real y| := by
    rw [eabs]
    refine h1.trans ?_
    rw [mul_comm]
    exact mul_le_mul hm ((pow_le_pow_of_le_one p0.le p1 hD).trans lo) (pow_pos p0 _).le (abs_nonneg _)
  have b2 : |real x * real y| < huge w := by
    rw [eabs]
    refine lt_of_le_of_lt ?_ h2
    rw [mul_comm]
    exact mul_le_mul (hi.trans (pow_eps_mono w hD)) hM (abs_nonneg _) (by linarith [one_le_pow_eps w D])
  obtain ⟨f, ε, hε, er⟩ := mul_relW hw hx.fin hy.fin b1 b2
  obtain ⟨e1, e2⟩ := abs_le.1 hε
  have ne : real (Fp.mul x y) ≠ 0 := by
    rw [er]
    refine mul_ne_zero (fun g => ?_) (by linarith : (0 : ℝ) < 1 + ε).ne'
    rw [g, abs_zero] at b1
    linarith [tiny_pos w]
  have ez : z = Fp.mul x y := by
    rcases hz with g | ⟨-, g⟩
    · exact g
    · exact absurd (real_zero_iffW.2 (num_eq_zero.2 g)) ne
  subst ez
  refine ⟨f, θ * η * (1 + ε), ?_, ?_, ?_⟩
  · rw [pow_succ]
    exact mul_le_mul lo (by linarith) p0.le (mul_pos tp np).le
  · rw [pow_succ]
    exact mul_le_mul hi (by linarith) (by linarith) (by linarith [one_le_pow_eps w (d + e)])
  · rw [er, exy]; ring

/-- Products of the values below and above one. -/
theorem prod_bounds (l : List Nat) (f : Nat → ℝ) :
    0 ≤ (l.map fun i => min 1 |f i|).prod ∧ (l.map fun i => min 1 |f i|).prod ≤ 1 ∧ 1 ≤ (l.map fun i => max 1 |f i|).prod ∧
    (l.map fun i => min 1 |f i|).prod ≤ |(l.map f).prod| ∧ |(l.map f).prod| ≤ (l.map fun i => max 1 |f i|).prod := by
  induction l with
  | nil => simp
  | cons i l ih =>
    obtain ⟨a, b, c, d, e⟩ := ih
    have m0 : 0 ≤ min 1 |f i| := le_min (by norm_num) (abs_nonneg _)
    have m1 : min 1 |f i| ≤ 1 := min_le_left _ _
    have M1 : 1 ≤ max 1 |f i| := le_max_left _ _
    simp only [List.map_cons, List.prod_cons, abs_mul]
    exact ⟨mul_nonneg m0 a, mul_le_one₀ m1 a b, one_le_mul_of_one_le_of_one_le M1 c, mul_le_mul (min_le_right _ _) d a (abs_nonneg _),
      mul_le_mul (le_max_right _ _) e (abs_nonneg _) (by linarith)⟩

theorem tree_prod (hw : FW w) {f : Nat → BitVec w} {D : Nat} (t : Tree) (hD : t.leaves.length - 1 ≤ D) {x : BitVec w}
    (ht : t.Yields (fun y z r => SameUpToZero r (Fp.mul y z)) f x) (hf : ∀ i ∈ t.leaves, isFinite (f i) = true)
    (h1 : tiny w ≤ (1 - eps w) ^ D * (t.leaves.map fun i => min 1 |real (f i)|).prod)
    (h2 : (1 + eps w) ^ D * (t.leaves.map fun i => max 1 |real (f i)|).prod < huge w) :
    PAppr (t.leaves.length - 1) x (t.leaves.map fun i => real (f i)).prod := by
  obtain ⟨p0, p1⟩ := one_sub_eps hw
  induction t generalizing x with
  | leaf i =>
    have e : x = f i := ht
    subst e
    exact ⟨hf i (by simp [Tree.leaves]), 1, by simp [Tree.leaves], by simp [Tree.leaves], by simp [Tree.leaves]⟩
  | node l r hl hr =>
    obtain ⟨y, z, hy, hz, hx⟩ := ht
    have pl := Tree.leaves_pos l
    have pr := Tree.leaves_pos r
    have bl := prod_bounds l.leaves fun i => real (f i)
    have br := prod_bounds r.leaves fun i => real (f i)
    have ball := prod_bounds (l.leaves ++ r.leaves) fun i => real (f i)
    simp only [Tree.leaves, List.map_append, List.prod_append, List.length_append] at h1 h2 hD ball ⊢
    have c0 : (0 : ℝ) ≤ (1 - eps w) ^ D := (pow_pos p0 _).le
    have c1 : (0 : ℝ) ≤ (1 + eps w) ^ D := by linarith [one_le_pow_eps w D]
    have al := hl (by omega) hy (fun i hi => hf i (by simp [Tree.leaves, hi]))
      (h1.trans (mul_le_mul_of_nonneg_left (mul_le_of_le_one_right bl.1 br.2.1) c0))
      (lt_of_le_of_lt (mul_le_mul_of_nonneg_left (le_mul_of_one_le_right (by linarith [bl.2.2.1]) br.2.2.1) c1) h2)
    have ar := hr (by omega) hz (fun i hi => hf i (by simp [Tree.leaves, hi]))
      (h1.trans (mul_le_mul_of_nonneg_left (mul_le_of_le_one_left br.1 bl.2.1) c0))
      (lt_of_le_of_lt (mul_le_mul_of_nonneg_left (le_mul_of_one_le_left (by linarith [br.2.2.1]) bl.2.2.1) c1) h2)
    have := PAppr.mul hw al ar (D := D) (by omega) ball.2.2.2.1 ball.2.2.2.2 h1 h2 hx
    rw [show l.leaves.length - 1 + (r.leaves.length - 1) + 1 = l.leaves.length + r.leaves.length - 1 by omega] at this
    exact this

theorem perm_prod {t : Tree} (ht : t.leaves.Perm (List.range N)) (f : Nat → ℝ) : (t.leaves.map f).prod = ∏ i : Fin N, f i.val := by
  rw [(ht.map f).prod_eq, Finset.prod_range f |>.symm]
  rfl

theorem red_prod (hw : FW w) {f : Vec w N → Option (BitVec w)} (hf : ∃ t : Tree, t.leaves.Perm (List.range N) ∧ ∀ a : Vec w N, ∃ x, f a = some x ∧
      t.Yields (fun y z r => SameUpToZero r (Fp.mul y z)) a.at_ x)
    (a : Vec w N) (ha : ∀ i, isFinite (a i) = true) (h1 : tiny w ≤ (1 - eps w) ^ (N - 1) * ∏ i, min 1 |real (a i)|)
    (h2 : (1 + eps w) ^ (N - 1) * ∏ i, max 1 |real (a i)| < huge w) :
    ∃ x, f a = some x ∧ PAppr (N - 1) x (∏ i, real (a i)) := by
  obtain ⟨t, ht, p⟩ := hf
  obtain ⟨x, ex, hx⟩ := p a
  have hl : t.leaves.length = N := by rw [ht.length_eq, List.length_range]
  have e : ∀ g : BitVec w → ℝ, (t.leaves.map fun i => g (a.at_ i)).prod = ∏ i, g (a i) := fun g => by
    rw [perm_prod ht fun i => g (a.at_ i)]
    exact Finset.prod_congr rfl fun i _ => by rw [Vec.at_fin]
  refine ⟨x, ex, ?_⟩
  have := tree_prod hw (f := a.at_) (D := N - 1) t (by rw [hl]) hx (fun i hi => by
    have hi' : i < N := List.mem_range.1 (ht.mem_iff.1 hi)
    rw [Vec.at_lt _ hi']
    exact ha _) (by rw [e fun b => min 1 |real b|]; exact h1) (by rw [e fun b => max 1 |real b|]; exact h2)
  rwa [hl, e fun b => real b] at this

/-! ### The statements -/

/-- The bound in a handier form: `d` roundings cost at most `2 d` units of relative error. -/
theorem C62_bound (w : Nat) {d : Nat} (hd : d * eps w ≤ 1 / 2) : (1 + eps w) ^ d - 1 ≤ 2 * d * eps w := by
  have hp := eps_pos w
  have hb : 1 - d * eps w ≤ (1 - eps w) ^ d ∨ d = 0 := by
    by_cases g : d = 0
    · exact Or.inr g
    · left
      have h1 : (1 : ℝ) ≤ d := by exact_mod_cast Nat.one_le_iff_ne_zero.2 g
      have := one_add_mul_le_pow (a := -eps w) (by nlinarith) d
      rw [← sub_eq_add_neg] at this
      linarith
  rcases hb with hb | rfl
  · have h3 : (1 - eps w) ^ d * (1 + eps w) ^ d ≤ 1 := by
      rw [← mul_pow]
      by_cases g : d = 0
      · subst g; simp
      · have h1 : (1 : ℝ) ≤ d := by exact_mod_cast Nat.one_le_iff_ne_zero.2 g
        refine pow_le_one₀ ?_ ?_ <;> nlinarith
    have h4 := mul_le_mul_of_nonneg_right hb (by linarith [one_le_pow_eps w d] : (0 : ℝ) ≤ (1 + eps w) ^ d)
    have h5 : (1 - d * eps w) * (1 + eps w) ^ d ≤ 1 := h4.trans h3
    have h6 : (0 : ℝ) ≤ d * eps w := by positivity
    have h7 : (0 : ℝ) < 1 - d * eps w := by linarith
    have h8 : 1 ≤ (1 - d * eps w) * (1 + 2 * d * eps w) := by nlinarith
    have := le_of_mul_le_mul_left (h5.trans h8) h7
    linarith
  · simp

/-- C62: `reduce_add` of `N` finite lanes differs from the sum of the lanes by at most `((1 + eps) ^ (N - 1) - 1)` times the sum of their
magnitudes, on every build, provided that sum stays away from overflow. -/
theorem C62_reduce_add {c : Cfg} (h : c.Ok) :
    (∀ gnuc N, c.FLen 32 N → ∀ a : Vec 32 N, (∀ i, isFinite (a i) = true) → (1 + eps 32) ^ (N - 1) * ∑ i, |real (a i)| < huge 32 →
      ∃ x, reduce_fadd32 c gnuc a = some x ∧ isFinite x = true ∧
        |real x - ∑ i, real (a i)| ≤ ((1 + eps 32) ^ (N - 1) - 1) * ∑ i, |real (a i)|) ∧
    (∀ N, c.FLen 64 N → ∀ a : Vec 64 N, (∀ i, isFinite (a i) = true) → (1 + eps 64) ^ (N - 1) * ∑ i, |real (a i)| < huge 64 →
      ∃ x, reduce_fadd64 c a = some x ∧ isFinite x = true ∧
        |real x - ∑ i, real (a i)| ≤ ((1 + eps 64) ^ (N - 1) - 1) * ∑ i, |real (a i)|) := by
  have key : ∀ {w N : Nat} (_ : FW w) {f : Vec w N → Option (BitVec w)}
      (_ : ∃ t : Tree, t.leaves.Perm (List.range N) ∧ ∀ a : Vec w N, f a = some (t.eval Fp.add a.at_)) (a : Vec w N)
      (_ : ∀ i, isFinite (a i) = true) (_ : (1 + eps w) ^ (N - 1) * ∑ i, |real (a i)| < huge w),
      ∃ x, f a = some x ∧ isFinite x = true ∧ |real x - ∑ i, real (a i)| ≤ ((1 + eps w) ^ (N - 1) - 1) * ∑ i, |real (a i)| := by
    intro w N hw f hf a ha hb
    have e : ∀ g : BitVec w → ℝ, ∑ i : Fin N, g (a.at_ i.val) = ∑ i, g (a i) := fun g =>
      Finset.sum_congr rfl fun i _ => by rw [Vec.at_fin]
    obtain ⟨x, ex, hx⟩ := red_appr hw hf a (d := 0) (S := fun i => real (a.at_ i)) (A := fun i => |real (a.at_ i)|)
      (fun i => by rw [Vec.at_fin]; exact Appr.exact (ha i) 0) (by rw [Nat.zero_add, e fun b => |real b|]; exact hb)
    rw [Nat.zero_add, e fun b => |real b|, e fun b => real b] at hx
    exact ⟨x, ex, hx.fin, hx.err⟩
  exact ⟨fun gnuc N hN a => key fw32 ((C48_reduce_add h).1 gnuc N hN) a, fun N hN a => key fw64 ((C48_reduce_add h).2 N hN) a⟩

/-- C62: two builds may give different sums, but not further apart than the bound allows. -/
theorem C62_builds_agree {c c' : Cfg} (h : c.Ok) (h' : c'.Ok) (g g' : Bool) {N : Nat} (hN : c.FLen 32 N) (hN' : c'.FLen 32 N) (a : Vec 32 N)
    (ha : ∀ i, isFinite (a i) = true) (hb : (1 + eps 32) ^ (N - 1) * ∑ i, |real (a i)| < huge 32) :
    ∃ x y, reduce_fadd32 c g a = some x ∧ reduce_fadd32 c' g' a = some y ∧
      |real x - real y| ≤ 2 * ((1 + eps 32) ^ (N - 1) - 1) * ∑ i, |real (a i)| := by
  obtain ⟨x, ex, -, hx⟩ := (C62_reduce_add h).1 g N hN a ha hb
  obtain ⟨y, ey, -, hy⟩ := (C62_reduce_add h').1 g' N hN' a ha hb
  refine ⟨x, y, ex, ey, ?_⟩
  rw [show real x - real y = (real x - ∑ i, real (a i)) - (real y - ∑ i, real (a i)) by ring]
  refine (abs_sub _ _).trans ?_
  linarith

/-- C62: `reduce_mul` of `N` finite lanes is the product of the lanes up to a factor between `(1 - eps) ^ (N - 1)` and `(1 + eps) ^ (N - 1)`, on
every build, provided no product of some of the lanes comes near overflow or underflow. -/
theorem C62_reduce_mul {c : Cfg} (h : c.Ok) :
    (∀ gnuc N, c.FLen 32 N → ∀ a : Vec 32 N, (∀ i, isFinite (a i) = true) → tiny 32 ≤ (1 - eps 32) ^ (N - 1) * ∏ i, min 1 |real (a i)| →
      (1 + eps 32) ^ (N - 1) * ∏ i, max 1 |real (a i)| < huge 32 →
      ∃ x θ, reduce_fmul32 c gnuc a = some x ∧ isFinite x = true ∧ (1 - eps 32) ^ (N - 1) ≤ θ ∧ θ ≤ (1 + eps 32) ^ (N - 1) ∧
        real x = (∏ i, real (a i)) * θ) ∧
    (∀ N, c.FLen 64 N → ∀ a : Vec 64 N, (∀ i, isFinite (a i) = true) → tiny 64 ≤ (1 - eps 64) ^ (N - 1) * ∏ i, min 1 |real (a i)| →
      (1 + eps 64) ^ (N - 1) * ∏ i, max 1 |real (a i)| < huge 64 →
      ∃ x θ, reduce_fmul64 c a = some x ∧ isFinite x = true ∧ (1 - eps 64) ^ (N - 1) ≤ θ ∧ θ ≤ (1 + eps 64) ^ (N - 1) ∧
        real x = (∏ i, real (a i)) * θ) := by
  refine ⟨fun gnuc N hN a ha h1 h2 => ?_, fun N hN a ha h1 h2 => ?_⟩
  · obtain ⟨x, e, f, θ, t1, t2, t3⟩ := red_prod fw32 ((C48_reduce_mul h).1 gnuc N hN) a ha h1 h2
    exact ⟨x, θ, e, f, t1, t2, t3⟩
  · obtain ⟨x, e, f, θ, t1, t2, t3⟩ := red_prod fw64 ((C48_reduce_mul h).2 N hN) a ha h1 h2
    exact ⟨x, θ, e, f, t1, t2, t3⟩

/-! ### Arrays -/

theorem appr_zero (f : FWd) : Appr 0 (0#f.n) 0 0 := by
  have e : isFinite (0#f.n) = true ∧ num (0#f.n) = 0 := by cases f <;> decide +kernel
  refine ⟨e.1, by simp, ?_⟩
  rw [real_zero_iffW.2 e.2]; simp

section
variable {c : Cfg} (h : c.Ok)
include h

/-- C62: the vectorised sum of an array expression (C60). If every value of the expression approximates the number `S j` with `d` roundings, relative
to `B j`, the sum over `n` vectors of `N` elements approximates the sum of the numbers with `d + n + N - 1` roundings, on every build. -/
theorem C62_array_sum (N : Nat) (E : Est) : ∃ I : (f : FWd) → Impl f.n,
    (∀ f, (I f).Ok ∧ (¬ c.mulByFma f.n (c.regK .flt f.n N) → (I f).mul = Fp.mul)) ∧
    ∀ (gnuc : Bool) (Γ : Nat → ETy) (f : FWd) (e : MExp Γ (.flt f)) (J : Nat → Junk c N) (V : Nat) (p : Nat → Nat) (n : Nat) (m : Mem)
      (A : (x : Nat) → Nat → BitVec (Γ x).w) (d : Nat) (S B : Nat → ℝ), ArrIn c N Γ V p (n * N) m A →
      e.Ok c N I (fun (j : Fin (n * N)) x => A x j.val) →
      (∀ j : Fin (n * N), Fp.isFinite (e.den I fun x => A x j.val) = true ∧ |S j| ≤ B j ∧
        |Fp.real (e.den I fun x => A x j.val) - S j| ≤ ((1 + eps f.n) ^ d - 1) * B j) →
      (1 + eps f.n) ^ (d + n + (N - 1)) * ∑ j : Fin (n * N), B j < huge f.n →
      ∃ x, fsumArr c gnuc E J V e p n m = some x ∧ Fp.isFinite x = true ∧
        |Fp.real x - ∑ j : Fin (n * N), S j| ≤ ((1 + eps f.n) ^ (d + n + (N - 1)) - 1) * ∑ j : Fin (n * N), B j := by
  obtain ⟨I, h1, h2⟩ := impls_ex h N
  refine ⟨I, h2, fun gnuc Γ f e J V p n m A d S B H ok hz hs => ?_⟩
  have hl : c.TLen (.flt f) N := ok.len
  have hw : Fp.FW f.n := FWd.okW f
  have ef := foldArr_eq h h1 E J e (init := accNum f 0) (comb := accFlt f .add) ⟨hl, nofun, trivial⟩
    (fun ρ => ⟨hl, fun _ => hl, trivial, trivial, trivial⟩) H ok
  generalize hacc : (fun l : Fin N => (List.range n).foldl (fun a i => (accFlt f .add).den I (two a (e.den I fun x => A x (i * N + l.val))))
    ((accNum f 0).den I fun _ => 0)) = acc at ef
  rw [sum_lanes n N B] at hs
  have hB : ∀ i < n, ∀ l : Fin N, 0 ≤ B (i * N + l.val) := fun i hi l => (abs_nonneg _).trans (hz ⟨_, blk_lt hi l.isLt⟩).2.1
  have hrow : ∀ l : Fin N, 0 ≤ ∑ i : Fin n, B (i.val * N + l.val) := fun l => Finset.sum_nonneg fun i _ => hB _ i.isLt l
  have hlane : ∀ l : Fin N, ∑ i : Fin n, B (i.val * N + l.val) ≤ ∑ l : Fin N, ∑ i : Fin n, B (i.val * N + l.val) := fun l =>
    Finset.single_le_sum (f := fun l : Fin N => ∑ i : Fin n, B (i.val * N + l.val)) (fun l _ => hrow l) (Finset.mem_univ l)
  have inv : ∀ l : Fin N, Appr (d + n) (acc l) (∑ i : Fin n, S (i.val * N + l.val)) (∑ i : Fin n, B (i.val * N + l.val)) := fun l => by
    rw [← hacc, Fin.sum_univ_eq_sum_range (fun i => S (i * N + l.val)), Fin.sum_univ_eq_sum_range (fun i => B (i * N + l.val))]
    refine foldl_inv (fun k (a : BitVec f.n) => Appr (d + k) a (∑ i ∈ Finset.range k, S (i * N + l.val)) (∑ i ∈ Finset.range k, B (i * N + l.val))) ?_
      fun k hk a ih => ?_
    · rw [Finset.sum_range_zero, Finset.sum_range_zero]
      exact (appr_zero f).mono (Nat.zero_le _)
    · rw [Finset.sum_range_succ, Finset.sum_range_succ]
      obtain ⟨z1, z2, z3⟩ := hz ⟨_, blk_lt hk l.isLt⟩
      refine Appr.add hw ih ((Appr.mk z1 z2 z3 : Appr d _ _ _).mono (Nat.le_add_right d k)) ?_
      have q : ∑ i ∈ Finset.range (k + 1), B (i * N + l.val) ≤ ∑ i ∈ Finset.range n, B (i * N + l.val) :=
        Finset.sum_le_sum_of_subset_of_nonneg (Finset.range_mono hk) fun i hi _ => hB i (Finset.mem_range.1 hi) l
      rw [Finset.sum_range_succ, ← Fin.sum_univ_eq_sum_range (fun i => B (i * N + l.val)) n] at q
      have q2 := q.trans (hlane l)
      have q0 : 0 ≤ ∑ i ∈ Finset.range k, B (i * N + l.val) + B (k * N + l.val) :=
        add_nonneg (Finset.sum_nonneg fun i hi => hB i (by have := Finset.mem_range.1 hi; omega) l) (hB k hk l)
      exact lt_of_le_of_lt (mul_le_mul (pow_eps_mono f.n (show d + k ≤ d + n + (N - 1) from by omega)) q2 q0 (by linarith [one_le_pow_eps f.n (d + n + (N - 1))])) hs
  have fin : ∃ x, fredAdd c gnuc f acc = some x ∧ Appr (d + n + (N - 1)) x (∑ l : Fin N, ∑ i : Fin n, S (i.val * N + l.val))
      (∑ l : Fin N, ∑ i : Fin n, B (i.val * N + l.val)) := by
    refine red_appr hw (S := fun l => ∑ i : Fin n, S (i.val * N + l)) (A := fun l => ∑ i : Fin n, B (i.val * N + l)) ?_ acc inv hs
    cases f
    · exact (C48_reduce_add h).1 gnuc N hl
    · exact (C48_reduce_add h).2 N hl
  obtain ⟨x, ex, hx⟩ := fin
  rw [← sum_lanes n N S, ← sum_lanes n N B] at hx
  exact ⟨x, (bind_of ef _).trans ex, hx.fin, hx.err⟩

omit h in
/-- One product of the dot product: exact for zero, one rounding for results that are not subnormal. -/
theorem dot_term {f : FWd} {I : Impl f.n} (hI : I.Ok) {x y : BitVec f.n} (fx : isFinite x = true) (fy : isFinite y = true)
    (h1 : real x * real y = 0 ∨ tiny f.n ≤ |real x * real y|) (h2 : |real x * real y| < huge f.n) :
    isFinite (I.mul x y) = true ∧ |real x * real y| ≤ |real x * real y| ∧
      |real (I.mul x y) - real x * real y| ≤ ((1 + eps f.n) ^ 1 - 1) * |real x * real y| := by
  have hw : Fp.FW f.n := FWd.okW f
  have key : isFinite (Fp.mul x y) = true ∧ ∃ ε : ℝ, |ε| ≤ eps f.n ∧ real (Fp.mul x y) = real x * real y * (1 + ε) := by
    rcases h1 with h1 | h1
    · obtain ⟨nx, ix⟩ := not_nan_of_finite fx
      obtain ⟨ny, iy⟩ := not_nan_of_finite fy
      have h0 : num x * num y = 0 := by
        rcases mul_eq_zero.1 h1 with g | g
        · rw [real_zero_iffW.1 g, Int.zero_mul]
        · rw [real_zero_iffW.1 g, Int.mul_zero]
      have e : Fp.mul x y = mk f.n (x.msb != y.msb) 0 := by
        unfold Fp.mul
        simp only [nx, ny, ix, iy, Bool.or_self, Bool.false_eq_true, if_false, if_pos h0]
      rw [e]
      refine ⟨?_, 0, by rw [abs_zero]; exact (eps_pos _).le, ?_⟩
      · rw [isFinite_iff, mk_mag hw (by positivity)]; cases f <;> decide
      · rw [h1, zero_mul, real_zero_iffW, num_mk hw (by positivity), numMag_zero]; simp
    · exact mul_relW hw fx fy h1 h2
  obtain ⟨f1, ε, hε, er⟩ := key
  have hs : isFinite (I.mul x y) = true ∧ real (I.mul x y) = real (Fp.mul x y) := by
    rcases hI.mul x y with g | ⟨g1, g2⟩
    · rw [g]; exact ⟨f1, rfl⟩
    · refine ⟨?_, by rw [real_zero_iffW.2 (num_eq_zero.2 g1), real_zero_iffW.2 (num_eq_zero.2 g2)]⟩
      rw [isFinite_iff, g1]; cases f <;> decide
  refine ⟨hs.1, le_refl _, ?_⟩
  rw [hs.2, er, pow_one, show real x * real y * (1 + ε) - real x * real y = ε * (real x * real y) by ring, abs_mul,
    show 1 + eps f.n - 1 = eps f.n by ring]
  exact mul_le_mul_of_nonneg_right hε (abs_nonneg _)

/-- C62: the dot product of two `float` or `double` arrays of `n` vectors of `N` elements, computed as
`for (..) acc = acc + load(x + i) * load(y + i); reduce_add(acc)`, is within `((1 + eps) ^ (n + N) - 1) * ∑ |x y|` of the exact dot product on every
build, provided no product is subnormal or near overflow. -/
theorem C62_dot (N : Nat) (E : Est) (gnuc : Bool) (f : FWd) (hN : c.TLen (.flt f) N) (J : Nat → Junk c N) (p : Nat → Nat) (n : Nat) (m : Mem)
    (A : Nat → Nat → BitVec f.n) (H : ArrIn c N (fun _ => .flt f) 2 p (n * N) m A)
    (hfin : ∀ j : Fin (n * N), isFinite (A 0 j) = true ∧ isFinite (A 1 j) = true)
    (hsub : ∀ j : Fin (n * N), real (A 0 j) * real (A 1 j) = 0 ∨ tiny f.n ≤ |real (A 0 j) * real (A 1 j)|)
    (hbig : (1 + eps f.n) ^ (n + N) * ∑ j : Fin (n * N), |real (A 0 j) * real (A 1 j)| < huge f.n) :
    ∃ x, fsumArr c gnuc E J 2 (accFlt f .mul) p n m = some x ∧ isFinite x = true ∧
      |real x - ∑ j : Fin (n * N), real (A 0 j) * real (A 1 j)| ≤ ((1 + eps f.n) ^ (n + N) - 1) * ∑ j : Fin (n * N), |real (A 0 j) * real (A 1 j)| := by
  obtain ⟨I, h2, h3⟩ := C62_array_sum h N E
  have hw : Fp.FW f.n := FWd.okW f
  have hNp : 0 < N := VLen.pos (Kind.okW.isW (k := .flt) hw) (FLen.toVLen h hw hN)
  have ed : 1 + n + (N - 1) = n + N := by omega
  have := h3 gnuc (fun _ => .flt f) f (accFlt f .mul) J 2 p n m A 1 (fun j => real (A 0 j) * real (A 1 j)) (fun j => |real (A 0 j) * real (A 1 j)|) H
    ⟨hN, fun _ => hN, trivial, trivial, trivial⟩ (fun j => ?_) (by rw [ed]; exact hbig)
  · rw [ed] at this; exact this
  · refine dot_term (h2 f).1 (hfin j).1 (hfin j).2 (hsub j) (lt_of_le_of_lt ?_ hbig)
    have q := Finset.single_le_sum (f := fun j : Fin (n * N) => |real (A 0 j) * real (A 1 j)|) (fun _ _ => abs_nonneg _) (Finset.mem_univ j)
    exact q.trans (le_mul_of_one_le_left (Finset.sum_nonneg fun _ _ => abs_nonneg _) (one_le_pow_eps _ _))

end

/-! Non-vacuity. -/

/-- Four ones on any build meet the hypotheses of `C62_reduce_add` and `C62_reduce_mul`. -/
example : (∀ i : Fin 4, isFinite ((Vec.splat 0x3f800000#32 : Vec 32 4) i) = true) ∧
    (1 + eps 32) ^ (4 - 1) * ∑ i, |real ((Vec.splat 0x3f800000#32 : Vec 32 4) i)| < huge 32 ∧
    tiny 32 ≤ (1 - eps 32) ^ (4 - 1) * ∏ i, min 1 |real ((Vec.splat 0x3f800000#32 : Vec 32 4) i)| ∧
    (1 + eps 32) ^ (4 - 1) * ∏ i, max 1 |real ((Vec.splat 0x3f800000#32 : Vec 32 4) i)| < huge 32 := by
  have e : ∀ i, real ((Vec.splat 0x3f800000#32 : Vec 32 4) i) = 1 := fun i => by
    refine real_of_numW ?_
    rw [show num ((Vec.splat 0x3f800000#32 : Vec 32 4) i) = 2 ^ 149 from (by decide +kernel : num 0x3f800000#32 = 2 ^ 149), show unit 32 = 149 from rfl]
    push_cast; ring
  refine ⟨fun i => (by decide +kernel : isFinite 0x3f800000#32 = true), ?_, ?_, ?_⟩ <;> simp only [e] <;> unfold eps <;>
    (try unfold huge) <;> (try unfold tiny) <;> rw [show prec 32 = 24 from rfl] <;> norm_num

end Simdpp
