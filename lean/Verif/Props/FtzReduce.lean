import Verif.Model.FtzReduce
import Verif.Props.FtzSame
import Verif.Props.FReduce
import Verif.Props.FSum

/-!
# C68: reductions on 32-bit NEON
-/

namespace Simdpp
open Spec Spec.Fp Spec.Flt Spec.Ftz

variable {N : Nat}

section
variable {c : Cfg} (hz : c.neonZ = true)
include hz

theorem zradd32_red : RedBy (fun x y z => z = Ftz.add x y) 4 (zradd32 c) :=
  redPairs4 (R := fun x y z => z = Ftz.add x y) (op := Ftz.add) (fun _ _ => rfl) fun _ => if_pos hz

theorem zrmul32_red : RedBy (fun x y z => z = Ftz.mul x y) 4 (zrmul32 c) := by
  refine ⟨.node (.node (.leaf 0) (.leaf 2)) (.node (.leaf 1) (.leaf 3)), by decide, fun a => ⟨_, if_pos hz, ?_⟩⟩
  exact ⟨_, _, ⟨_, _, rfl, rfl, rfl⟩, ⟨_, _, rfl, rfl, rfl⟩, rfl⟩

theorem zrmm32_red (isMax : Bool) : RedBy (fun x y z => z = zmmOp isMax x y) 4 (zrmm32 c isMax) :=
  redPairs4 (R := fun x y z => z = zmmOp isMax x y) (op := zmmOp isMax) (fun _ _ => rfl) fun _ => if_pos hz

theorem neonZ_noAvx (h : c.Ok) : ¬ c.avx = true := by
  intro g
  unfold Cfg.neonZ Cfg.neon32 at hz
  simp only [Bool.and_eq_true, Bool.not_eq_true'] at hz
  obtain ⟨⟨h1, h2⟩, h3⟩ := hz
  cfg_absurd h

end

section
variable {c : Cfg} (h : c.Ok) (hz : c.neonZ = true)
include h hz

/-- **C68**, reductions: `reduce_add` adds every lane exactly once, in an order which depends on the length only, each sum flushed to zero. -/
theorem C68_reduce_add (hN : c.FLen 32 N) : ∃ t : Tree, t.leaves.Perm (List.range N) ∧ ∀ a : Vec 32 N, z_reduce_add c a = some (t.eval Ftz.add a.at_) :=
  RedBy.evals (fredAll_red h (.inl rfl) (op := fun _ => z_fadd c) (fun _ _ _ _ _ => ⟨_, if_pos hz, fun _ => rfl⟩) (zradd32_red hz)
    (fun g => absurd g (neonZ_noAvx hz h)) hN)

/-- **C68**, reductions: `reduce_mul` likewise. -/
theorem C68_reduce_mul (hN : c.FLen 32 N) : ∃ t : Tree, t.leaves.Perm (List.range N) ∧ ∀ a : Vec 32 N, z_reduce_mul c a = some (t.eval Ftz.mul a.at_) :=
  RedBy.evals (fredAll_red h (.inl rfl) (op := fun _ => z_fmul c) (fun _ _ _ _ _ => ⟨_, if_pos hz, fun _ => rfl⟩) (zrmul32_red hz)
    (fun g => absurd g (neonZ_noAvx hz h)) hN)

theorem z_reduce_mm_tree (isMax : Bool) (hN : c.FLen 32 N) :
    ∃ t : Tree, t.leaves.Perm (List.range N) ∧ ∀ a : Vec 32 N, z_reduce_mm c isMax a = some (t.eval (zmmOp isMax) a.at_) :=
  RedBy.evals (fredAll_red h (.inl rfl) (op := fun _ => if isMax then z_fmax c else z_fmin c)
    (fun _ _ _ _ _ => by cases isMax <;> exact ⟨_, if_pos hz, fun _ => rfl⟩) (zrmm32_red hz isMax) (fun g => absurd g (neonZ_noAvx hz h)) hN)

end

/-! ## Minimum and maximum -/

theorem flush_zmm (isMax : Bool) (x y : BitVec 32) : flush (zmmOp isMax x y) = zmmOp isMax x y := by
  have hw : FW 32 := .inl rfl
  have e0 : flush (nan 32) = nan 32 := by decide +kernel
  cases isMax
  · show flush (lesser (flush x) (flush y)) = lesser (flush x) (flush y)
    unfold lesser
    split_ifs <;> first | exact e0 | exact flush_idem hw _
  · show flush (greater (flush x) (flush y)) = greater (flush x) (flush y)
    unfold greater
    split_ifs <;> first | exact e0 | exact flush_idem hw _

theorem flush_tree (isMax : Bool) (t : Tree) (f : Nat → BitVec 32) : flush (t.eval (zmmOp isMax) f) = t.eval (mmPairOp isMax) fun i => flush (f i) := by
  induction t with
  | leaf i => rw [Tree.eval, Tree.eval]
  | node l r hl hr =>
    show flush (zmmOp isMax _ _) = mmPairOp isMax _ _
    rw [flush_zmm, ← hl, ← hr]; rfl

section
variable {c : Cfg} (h : c.Ok) (hz : c.neonZ = true)
include h hz

theorem z_reduce_mm_ext (isMax : Bool) (hN : c.FLen 32 N) (a : Vec 32 N) (hn : ∀ i, isNaN (a i) = false) :
    ∃ x, z_reduce_mm c isMax a = some x ∧ (∃ i, x = flush (a i)) ∧ ∀ i, (if isMax then fge x (flush (a i)) else fle x (flush (a i))) = true := by
  have hw : FW 32 := .inl rfl
  obtain ⟨t, ht, e⟩ := z_reduce_mm_tree h hz isMax hN
  have hm : ∀ {i}, i ∈ t.leaves ↔ i < N := fun {i} => ht.mem_iff.trans List.mem_range
  have hN4 : 1 < N := by
    obtain ⟨-, K, hK, e⟩ := KLen.regs h (k := .flt) (.inl rfl) hN
    have : 4 ≤ (c.regK .flt 32 N).lanes 32 := by cases c.regK .flt 32 N <;> decide
    have := Nat.mul_le_mul_right ((c.regK .flt 32 N).lanes 32) hK
    omega
  have hfl : flush (t.eval (zmmOp isMax) a.at_) = t.eval (zmmOp isMax) a.at_ := by
    cases t with
    | leaf i =>
      have := ht.length_eq
      rw [List.length_range] at this
      exact absurd this (by simp [Tree.leaves]; omega)
    | node l r => exact flush_zmm isMax _ _
  have hy : t.Yields (IsExt isMax) (fun i => flush (a.at_ i)) (t.eval (zmmOp isMax) a.at_) := by
    rw [← hfl, flush_tree]
    have o := (ext_ops (w := 32) (.inl rfl) isMax).2.1
    clear hfl e ht hm
    induction t with
    | leaf i => exact rfl
    | node l r hl hr => exact ⟨_, _, hl, hr, o _ _⟩
  obtain ⟨-, ⟨i, hi, ei⟩, hall⟩ := ext_tree (fun i hi => by rw [Vec.at_lt _ (hm.1 hi), flush_nan hw]; exact hn _) hy
  refine ⟨_, e a, ⟨⟨i, hm.1 hi⟩, by rw [ei, Vec.at_lt _ (hm.1 hi)]⟩, fun j => ?_⟩
  have := hall j.val (hm.2 j.isLt)
  rwa [Vec.at_fin] at this

/-- **C68**, reductions: without NaN, `reduce_min` is one of the lanes, a subnormal one counting as zero, and not above any of them. -/
theorem C68_reduce_min (hN : c.FLen 32 N) (a : Vec 32 N) (hn : ∀ i, isNaN (a i) = false) :
    ∃ x, z_reduce_mm c false a = some x ∧ (∃ i, x = flush (a i)) ∧ ∀ i, fle x (flush (a i)) = true := z_reduce_mm_ext h hz false hN a hn

/-- **C68**, reductions: `reduce_max` likewise. -/
theorem C68_reduce_max (hN : c.FLen 32 N) (a : Vec 32 N) (hn : ∀ i, isNaN (a i) = false) :
    ∃ x, z_reduce_mm c true a = some x ∧ (∃ i, x = flush (a i)) ∧ ∀ i, fge x (flush (a i)) = true := z_reduce_mm_ext h hz true hN a hn

end

/-! ## Integers are exact -/

theorem int_clear {x : BitVec 32} {z : Int} (hx : IsInt x z) : ¬ Subnormal x := fun ⟨g1, g2⟩ => by
  have e := num_low g2
  have hle : 2 ^ (prec 32 - 1) ≤ ((2 : Int) ^ unit 32).natAbs := by decide +kernel
  rw [hx.2, Int.natAbs_mul] at e
  revert hle e g2
  generalize ((2 : Int) ^ unit 32).natAbs = U
  generalize 2 ^ (prec 32 - 1) = T
  intro g2 e hle
  rcases Nat.eq_zero_or_pos z.natAbs with g | g
  · rw [g, Nat.zero_mul] at e; omega
  · have := Nat.mul_le_mul_right U g
    omega

attribute [local irreducible] Fp.add Fp.mul Fp.round Fp.num Fp.unit flush

theorem add_clear {x y : BitVec 32} (h1 : ¬ Subnormal x) (h2 : ¬ Subnormal y) (h3 : ¬ Subnormal (Fp.add x y)) : Ftz.add x y = Fp.add x y := by
  unfold Ftz.add
  rw [flush_of h1, flush_of h2, flush_of h3]

attribute [local irreducible] Ftz.add

theorem z_tree_sum {f : Nat → BitVec 32} {P : Tree → Prop} (hP : ∀ l r, P (.node l r) → P l ∧ P r)
    (hI : ∀ t, P t → ∃ v, IsInt (t.eval Fp.add f) v) (t : Tree) (ht : P t) : t.eval Ftz.add f = t.eval Fp.add f := by
  induction t with
  | leaf i => rw [Tree.eval, Tree.eval]
  | node l r hl hr =>
    obtain ⟨pl, pr⟩ := hP l r ht
    obtain ⟨v, hv⟩ := hI _ ht
    obtain ⟨vl, hvl⟩ := hI _ pl
    obtain ⟨vr, hvr⟩ := hI _ pr
    rw [Tree.eval] at hv
    have e := add_clear (int_clear hvl) (int_clear hvr) (int_clear hv)
    rw [Tree.eval, Tree.eval, hl pl, hr pr, e]

def sumOk (f : Nat → BitVec 32) (z : Nat → Int) (t : Tree) : Prop :=
  (∀ i ∈ t.leaves, IsInt (f i) (z i)) ∧ (t.leaves.map (fun i => (z i).natAbs)).sum < 2 ^ 24

theorem sumOk.split {f : Nat → BitVec 32} {z : Nat → Int} {l r : Tree} (h : sumOk f z (.node l r)) : sumOk f z l ∧ sumOk f z r := by
  obtain ⟨hf, hs⟩ := h
  have e : ((Spec.Tree.node l r).leaves.map (fun i => (z i).natAbs)).sum
      = (l.leaves.map (fun i => (z i).natAbs)).sum + (r.leaves.map (fun i => (z i).natAbs)).sum := by
    rw [Spec.Tree.leaves, List.map_append, List.sum_append]
  rw [e] at hs
  exact ⟨⟨fun i hi => hf i (List.mem_append_left _ hi), lt_of_le_of_lt (Nat.le_add_right _ _) hs⟩,
    ⟨fun i hi => hf i (List.mem_append_right _ hi), lt_of_le_of_lt (Nat.le_add_left _ _) hs⟩⟩

theorem z_sum {f : Nat → BitVec 32} {z : Nat → Int} {t : Tree} (h : sumOk f z t) : t.eval Ftz.add f = t.eval Fp.add f :=
  z_tree_sum (P := sumOk f z) (fun _ _ h => h.split) (fun _ h => ⟨_, (tree_sum (w := 32) (.inl rfl) h.1 h.2).1⟩) t h

/-- **C68**, reductions: the sum of integers is exact if their magnitudes add up to less than `2 ^ 24`. -/
theorem C68_reduce_add_exact {c : Cfg} (h : c.Ok) (hz : c.neonZ = true) (hN : c.FLen 32 N) (a : Vec 32 N) (z : Fin N → Int)
    (hi : ∀ i, Fp.isFinite (a i) = true ∧ Fp.num (a i) = z i * 2 ^ unit 32) (hs : (List.ofFn fun i => (z i).natAbs).sum < 2 ^ 24) :
    ∃ x, z_reduce_add c a = some x ∧ Fp.isFinite x = true ∧ Fp.num x = (List.ofFn z).sum * 2 ^ unit 32 := by
  obtain ⟨t, ht, e⟩ := C68_reduce_add h hz hN
  have := red_sum (w := 32) (.inl rfl) (f := fun a : Vec 32 N => some (t.eval Fp.add a.at_)) ⟨t, ht, fun _ => rfl⟩ a z hi hs
  obtain ⟨x, e1, e2⟩ := this
  refine ⟨x, ?_, e2⟩
  rw [e a, ← Option.some.inj e1]
  have hm : ∀ {i}, i ∈ t.leaves ↔ i < N := fun {i} => ht.mem_iff.trans List.mem_range
  refine congrArg some (z_sum (z := fun i => if h : i < N then z ⟨i, h⟩ else 0) ⟨fun i hi' => ?_, ?_⟩)
  · rw [Vec.at_lt _ (hm.1 hi')]
    dsimp only
    rw [dif_pos (hm.1 hi')]; exact hi _
  · rw [(ht.map _).sum_eq]
    rw [ofFn_range _ 0] at hs
    refine lt_of_eq_of_lt (congrArg List.sum (List.map_congr_left fun i hi => ?_)) hs
    dsimp only
    rw [dif_pos (List.mem_range.1 hi), dif_pos (List.mem_range.1 hi)]

/-! ## Error -/

/-- `x` is the sum `S` of numbers whose magnitudes add up to `A`, up to `d` roundings and `k` sums which may have lost a subnormal number. -/
structure ZAppr (d k : Nat) (x : BitVec 32) (S A : ℝ) : Prop where
  fin : isFinite x = true
  abs : |S| ≤ A
  err : |real x - S| ≤ ((1 + eps 32) ^ d - 1) * A + 3 * k * tiny 32 * (1 + eps 32) ^ d

theorem ZAppr.mono {d e k : Nat} {x : BitVec 32} {S A : ℝ} (h : ZAppr d k x S A) (hd : d ≤ e) : ZAppr e k x S A := by
  have h1 := pow_eps_mono 32 hd
  have h2 := tiny_pos 32
  have h3 : (0 : ℝ) ≤ 3 * k * tiny 32 := by positivity
  have h4 : 0 ≤ A := (abs_nonneg _).trans h.abs
  refine ⟨h.fin, h.abs, h.err.trans (add_le_add (mul_le_mul_of_nonneg_right (by linarith) h4) (mul_le_mul_of_nonneg_left h1 h3))⟩

theorem ZAppr.add {d k l : Nat} {x y : BitVec 32} {S A T B : ℝ} (hx : ZAppr d k x S A) (hy : ZAppr d l y T B)
    (hb : (1 + eps 32) ^ d * (A + B + 3 * (k + l : ℕ) * tiny 32) < huge 32) : ZAppr (d + 1) (k + l + 1) (Ftz.add x y) (S + T) (A + B) := by
  have hA : 0 ≤ A := (abs_nonneg _).trans hx.abs
  have hB : 0 ≤ B := (abs_nonneg _).trans hy.abs
  have ht := tiny_pos 32
  have he := eps_pos 32
  have hq := one_le_pow_eps 32 d
  have e1 := hx.err
  have e2 := hy.err
  have a1 := hx.abs
  have a2 := hy.abs
  have fx := hx.fin
  have fy := hy.fin
  push_cast at hb
  have hq' : (1 + eps 32 : ℝ) ^ (d + 1) = (1 + eps 32) ^ d * (1 + eps 32) := pow_succ _ _
  refine ⟨?_, (abs_add_le S T).trans (add_le_add a1 a2), ?_⟩
  all_goals
    have r1 : |real x| ≤ A + |real x - S| := by
      have := abs_add_le (real x - S) S
      rw [sub_add_cancel] at this; linarith
    have r2 : |real y| ≤ B + |real y - T| := by
      have := abs_add_le (real y - T) T
      rw [sub_add_cancel] at this; linarith
    have hsum : |real x| + |real y| ≤ (1 + eps 32) ^ d * (A + B + 3 * (k + l) * tiny 32) := by nlinarith
    obtain ⟨f, er⟩ := C68_add_error (w := 32) (.inl rfl) fx fy (lt_of_le_of_lt hsum hb)
  · exact f
  · push_cast
    rw [hq']
    have h1 : |real (Ftz.add x y) - (S + T)| ≤ |real (Ftz.add x y) - (real x + real y)| + (|real x - S| + |real y - T|) := by
      have e : real (Ftz.add x y) - (S + T) = (real (Ftz.add x y) - (real x + real y)) + ((real x - S) + (real y - T)) := by ring
      rw [e]
      exact (abs_add_le _ _).trans (add_le_add (le_refl _) (abs_add_le _ _))
    have h2 : |real x + real y| ≤ |real x| + |real y| := abs_add_le _ _
    have h3 : eps 32 * |real x + real y| ≤ eps 32 * ((A + |real x - S|) + (B + |real y - T|)) := mul_le_mul_of_nonneg_left (by linarith) he.le
    generalize (1 + eps 32 : ℝ) ^ d = q at *
    generalize |real x - S| = u at *
    generalize |real y - T| = v at *
    generalize eps 32 = ε at *
    generalize tiny 32 = τ at *
    have h4 : (1 + ε) * (u + v) ≤ (1 + ε) * ((q - 1) * (A + B) + 3 * (k + l) * τ * q) := mul_le_mul_of_nonneg_left (by nlinarith) (by linarith)
    have h5 : 3 * τ ≤ 3 * τ * (q * (1 + ε)) := le_mul_of_one_le_right (by positivity) (one_le_mul_of_one_le_of_one_le hq (by linarith))
    nlinarith

theorem z_tree_appr {f : Nat → BitVec 32} {S A : Nat → ℝ} (t : Tree) (hf : ∀ i ∈ t.leaves, isFinite (f i) = true ∧ S i = real (f i) ∧ A i = |real (f i)|)
    (hb : (1 + eps 32) ^ (t.leaves.length - 1) * ((t.leaves.map A).sum + 3 * (t.leaves.length - 1 : ℕ) * tiny 32) < huge 32) :
    ZAppr (t.leaves.length - 1) (t.leaves.length - 1) (t.eval Ftz.add f) (t.leaves.map S).sum (t.leaves.map A).sum := by
  induction t with
  | leaf i =>
    obtain ⟨h1, h2, h3⟩ := hf i (by simp [Tree.leaves])
    refine ⟨h1, by simp [Tree.leaves, h2, h3], ?_⟩
    simp [Tree.leaves, h2, Tree.eval]
  | node l r hl hr =>
    have pl := Tree.leaves_pos l
    have pr := Tree.leaves_pos r
    simp only [Tree.leaves, List.map_append, List.sum_append, List.length_append] at hb ⊢
    have hfl : ∀ i ∈ l.leaves, isFinite (f i) = true ∧ S i = real (f i) ∧ A i = |real (f i)| := fun i hi => hf i (by simp [Tree.leaves, hi])
    have hfr : ∀ i ∈ r.leaves, isFinite (f i) = true ∧ S i = real (f i) ∧ A i = |real (f i)| := fun i hi => hf i (by simp [Tree.leaves, hi])
    have posS : ∀ t : Tree, (∀ i ∈ t.leaves, isFinite (f i) = true ∧ S i = real (f i) ∧ A i = |real (f i)|) → 0 ≤ (t.leaves.map A).sum := fun t ht => by
      refine List.sum_nonneg fun x hx => ?_
      obtain ⟨i, hi, rfl⟩ := List.mem_map.1 hx
      rw [(ht i hi).2.2]; exact abs_nonneg _
    have sl := posS l hfl
    have sr := posS r hfr
    have ht := tiny_pos 32
    have lt : ∀ {e k : Nat} {x : ℝ}, e ≤ l.leaves.length + r.leaves.length - 1 → k ≤ l.leaves.length + r.leaves.length - 1 → 0 ≤ x →
        x ≤ (l.leaves.map A).sum + (r.leaves.map A).sum → (1 + eps 32) ^ e * (x + 3 * (k : ℝ) * tiny 32) < huge 32 := fun {e k x} he hk hx hle => by
      refine lt_of_le_of_lt (mul_le_mul (pow_eps_mono 32 he) (add_le_add hle ?_) (by positivity) (by linarith [one_le_pow_eps 32 (l.leaves.length + r.leaves.length - 1)])) hb
      have : (k : ℝ) ≤ ((l.leaves.length + r.leaves.length - 1 : ℕ) : ℝ) := by exact_mod_cast hk
      exact mul_le_mul_of_nonneg_right (by linarith) ht.le
    have hl' := (hl hfl (lt (by omega) (by omega) sl (by linarith))).mono (e := l.leaves.length + r.leaves.length - 2) (by omega)
    have hr' := (hr hfr (lt (by omega) (by omega) sr (by linarith))).mono (e := l.leaves.length + r.leaves.length - 2) (by omega)
    have := ZAppr.add hl' hr' (lt (by omega) (by omega) (by linarith) (le_refl _))
    rw [show l.leaves.length + r.leaves.length - 2 + 1 = l.leaves.length + r.leaves.length - 1 by omega,
      show l.leaves.length - 1 + (r.leaves.length - 1) + 1 = l.leaves.length + r.leaves.length - 1 by omega] at this
    exact this

/-- **C68**, reductions: the sum is within the bound of IEEE arithmetic (C62) and three least normal numbers for each addition. -/
theorem C68_reduce_add_error {c : Cfg} (h : c.Ok) (hz : c.neonZ = true) (hN : c.FLen 32 N) (a : Vec 32 N) (ha : ∀ i, isFinite (a i) = true)
    (hb : (1 + eps 32) ^ (N - 1) * (∑ i, |real (a i)| + 3 * (N - 1 : ℕ) * tiny 32) < huge 32) :
    ∃ x, z_reduce_add c a = some x ∧ isFinite x = true ∧
      |real x - ∑ i, real (a i)| ≤ ((1 + eps 32) ^ (N - 1) - 1) * ∑ i, |real (a i)| + 3 * (N - 1 : ℕ) * tiny 32 * (1 + eps 32) ^ (N - 1) := by
  obtain ⟨t, ht, e⟩ := C68_reduce_add h hz hN
  have hl : t.leaves.length = N := by rw [ht.length_eq, List.length_range]
  have hm : ∀ {i}, i ∈ t.leaves ↔ i < N := fun {i} => ht.mem_iff.trans List.mem_range
  have es : ∀ g : BitVec 32 → ℝ, (t.leaves.map fun i => g (a.at_ i)).sum = ∑ i, g (a i) := fun g => by
    rw [perm_sum ht fun i => g (a.at_ i)]
    exact Finset.sum_congr rfl fun i _ => by rw [Vec.at_fin]
  have := z_tree_appr (f := a.at_) (S := fun i => real (a.at_ i)) (A := fun i => |real (a.at_ i)|) t (fun i hi => ⟨by
    rw [Vec.at_lt _ (hm.1 hi)]; exact ha _, rfl, rfl⟩) (by rw [hl, es fun b => |real b|]; exact hb)
  rw [hl, es fun b => real b, es fun b => |real b|] at this
  exact ⟨_, e a, this.fin, this.err⟩

/-! ## Examples -/

example : Cfg.neonA32.neonZ = true ∧ Cfg.neonA32.FLen 32 4 ∧ Cfg.neonA32.FLen 32 16 :=
  ⟨by decide, Or.inl ⟨.r128, by decide +kernel, by decide +kernel⟩, Or.inr ⟨4, by decide, by decide +kernel⟩⟩

/-- Four subnormal numbers which add up to a normal number: the sum on 32-bit NEON is zero. -/
theorem C68_reduce_add_lost : z_reduce_add Cfg.neonA32 (Vec.splat 0x00400000#32 : Vec 32 4) = some 0#32 ∧
    reduce_fadd32 Cfg.sse2Only false (Vec.splat 0x00400000#32 : Vec 32 4) = some 0x01000000#32 := by decide +kernel

end Simdpp
