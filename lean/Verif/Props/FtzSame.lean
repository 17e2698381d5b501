import Verif.Props.Ftz

/-!
# C68: when flushing to zero matters, and how much
-/

namespace Simdpp
open Spec Spec.FProg Spec.Fp Spec.Flt Spec.Ftz

variable {w n K L : Nat}

/-! ## Nothing tiny: the IEEE computation -/

namespace Spec.Ftz

/-- The rounded value of an exact value below the normal range is not above the least normal number. -/
theorem rndMag_le_min {k m : Nat} (hm : m < 2 ^ (prec w - 1 + k)) : rndMag w k m ≤ 2 ^ (prec w - 1) := by
  have hl := len_le hm
  have hp : 1 ≤ prec w := by unfold prec; split_ifs <;> decide
  have hq : max (len m - prec w) k = k := by omega
  unfold rndMag
  dsimp only
  rw [hq, Nat.sub_self, Nat.zero_mul, Nat.zero_add]
  refine le_trans (min_le_right _ _) ?_
  unfold rne
  dsimp only
  have : m / 2 ^ k < 2 ^ (prec w - 1) := by
    rw [Nat.div_lt_iff_lt_mul (by positivity), ← pow_add]
    exact hm
  split_ifs <;> omega

theorem mul_clear (hw : FW w) {x y : BitVec w} (hx : ¬ Subnormal x) (hy : ¬ Subnormal y) (hr : ¬ Subnormal (Fp.mul x y))
    (hm : mag (Fp.mul x y) ≠ 2 ^ (prec w - 1)) : Ftz.mul x y = Fp.mul x y := by
  unfold Ftz.mul
  rw [flush_of hx, flush_of hy]
  split_ifs with h
  · obtain ⟨fx, fy, ht⟩ := h
    obtain ⟨nx, ix⟩ := not_nan_of_finite fx
    obtain ⟨ny, iy⟩ := not_nan_of_finite fy
    have e : Fp.mul x y = if num x * num y = 0 then mk w (x.msb != y.msb) 0 else Fp.round w (unit w) (num x * num y) := by
      unfold Fp.mul
      simp only [nx, ny, ix, iy, Bool.or_self, Bool.false_eq_true, if_false]
    by_cases h0 : num x * num y = 0
    · rw [e, if_pos h0]
    · rw [if_neg h0] at e
      have hle : mag (Fp.mul x y) ≤ 2 ^ (prec w - 1) := by
        rw [e, round_mag hw]; exact rndMag_le_min ht
      have hz : mag (Fp.mul x y) = 0 := by
        unfold Subnormal at hr; omega
      refine ext_sm hw ?_ ?_
      · rw [mk_msb hw (by positivity), e, round_msb hw]
        have sx : num x < 0 ↔ x.msb = true ∧ num x ≠ 0 := by
          unfold num; split_ifs <;> simp_all <;> omega
        have sy : num y < 0 ↔ y.msb = true ∧ num y ≠ 0 := by
          unfold num; split_ifs <;> simp_all <;> omega
        have n1 : num x ≠ 0 := fun q => h0 (by rw [q, Int.zero_mul])
        have n2 : num y ≠ 0 := fun q => h0 (by rw [q, Int.mul_zero])
        have e1 : decide (num x * num y < 0) = (decide (num x < 0) != decide (num y < 0)) := by
          rcases lt_or_gt_of_ne n1 with a | a <;> rcases lt_or_gt_of_ne n2 with b | b
          · have := Int.mul_pos_of_neg_of_neg a b
            rw [decide_eq_false (by omega), decide_eq_true a, decide_eq_true b]; rfl
          · have := Int.mul_neg_of_neg_of_pos a b
            rw [decide_eq_true this, decide_eq_true a, decide_eq_false (by omega)]; rfl
          · have := Int.mul_neg_of_pos_of_neg a b
            rw [decide_eq_true this, decide_eq_false (by omega), decide_eq_true b]; rfl
          · have := Int.mul_pos a b
            rw [decide_eq_false (by omega), decide_eq_false (by omega), decide_eq_false (by omega)]; rfl
        have s1 : decide (num x < 0) = x.msb := by
          cases hb : x.msb
          · exact decide_eq_false fun q => absurd (sx.1 q).1 (by rw [hb]; exact Bool.false_ne_true)
          · exact decide_eq_true (sx.2 ⟨hb, n1⟩)
        have s2 : decide (num y < 0) = y.msb := by
          cases hb : y.msb
          · exact decide_eq_false fun q => absurd (sy.1 q).1 (by rw [hb]; exact Bool.false_ne_true)
          · exact decide_eq_true (sy.2 ⟨hb, n2⟩)
        rw [e1, s1, s2]
      · rw [mk_mag hw (by positivity), hz]
  · rfl

theorem lane2_clear (hw : FW w) (o : FOp2) {x y : BitVec w} (hc : Clear2 x y (o.lane neonImpl x y) o) : lane2 x y o = o.lane neonImpl x y := by
  cases o
  · obtain ⟨h1, h2, h3⟩ := hc
    show flush (Fp.add (flush x) (flush y)) = Fp.add x y
    rw [flush_of h1, flush_of h2]; exact flush_of h3
  · obtain ⟨h1, h2, h3⟩ := hc
    show flush (Fp.sub (flush x) (flush y)) = Fp.sub x y
    rw [flush_of h1, flush_of h2]; exact flush_of h3
  · obtain ⟨h1, h2, h3, h4⟩ := hc
    exact mul_clear hw h1 h2 h3 h4
  · rfl
  · obtain ⟨h1, h2⟩ := hc
    show lesser (flush x) (flush y) = lesser x y
    rw [flush_of h1, flush_of h2]
  · obtain ⟨h1, h2⟩ := hc
    show greater (flush x) (flush y) = greater x y
    rw [flush_of h1, flush_of h2]
  all_goals rfl

theorem rel_clear (eqz : Bool) (R : Rel) {x y : BitVec w} (hx : ¬ Subnormal x) (hy : ¬ Subnormal y) : rel eqz R x y = R.onFlt x y := by
  unfold rel
  cases eqz <;> cases R <;> simp only [flush_of hx, flush_of hy]

theorem den_clear (hw : FW w) (eqz : Bool) (env : Nat → BitVec w) : {t : FTy} → (e : FExp w t) → NoTiny neonImpl env e →
    den eqz env e = e.den neonImpl env
  | _, .var _, _ => rfl
  | _, .lit _, _ => rfl
  | _, .op1 o a, q => congrArg (fun x : BitVec w => o.lane x) (den_clear hw eqz env a q)
  | _, .op2 o a b, q => by
    obtain ⟨q1, q2, q3⟩ := q
    unfold den FExp.den
    rw [den_clear hw eqz env a q1, den_clear hw eqz env b q2]
    exact lane2_clear hw o q3
  | _, .fmadd a b c, q => by
    unfold den FExp.den
    rw [den_clear hw eqz env a q.1, den_clear hw eqz env b q.2.1, den_clear hw eqz env c q.2.2]
  | _, .fmsub a b c, q => by
    unfold den FExp.den
    rw [den_clear hw eqz env a q.1, den_clear hw eqz env b q.2.1, den_clear hw eqz env c q.2.2]
  | _, .cmp R a b, q => by
    obtain ⟨q1, q2, q3, q4⟩ := q
    unfold den FExp.den
    rw [den_clear hw eqz env a q1, den_clear hw eqz env b q2]
    exact rel_clear eqz R q3 q4
  | _, .isnan a, q => congrArg (fun x : BitVec w => isNaN x) (den_clear hw eqz env a q)
  | _, .isfinite a, q => congrArg (fun x : BitVec w => Fp.isFinite x) (den_clear hw eqz env a q)
  | _, .opm o a b, q => by
    unfold den FExp.den
    rw [den_clear hw eqz env a q.1, den_clear hw eqz env b q.2]
  | _, .notm a, q => congrArg Bool.not (den_clear hw eqz env a q)
  | _, .andm a m, q => by
    unfold den FExp.den
    rw [den_clear hw eqz env a q.1, den_clear hw eqz env m q.2]
  | _, .andnotm a m, q => by
    unfold den FExp.den
    rw [den_clear hw eqz env a q.1, den_clear hw eqz env m q.2]
  | _, .blend a b m, q => by
    unfold den FExp.den
    rw [den_clear hw eqz env a q.1, den_clear hw eqz env b q.2.1, den_clear hw eqz env m q.2.2]

theorem neonImpl_ok (hw : FW w) : (neonImpl : Impl w).Ok := by
  have m := (isMin_all hw).2.2.1
  have m' := (isMax_all hw).2.2.1
  exact ⟨fun x y => Or.inl rfl, fun x y => (m x y).1, fun x y => (m' x y).1, fun x y => (m x y).2, fun x y => (m' x y).2⟩

theorem noTiny_congr (env : Nat → BitVec w) : {t : FTy} → (e : FExp w t) → e.noMinMax = true → NoTiny ieee env e → NoTiny neonImpl env e
  | _, .var _, _, _ => trivial
  | _, .lit _, _, _ => trivial
  | _, .op1 _ a, q, t => noTiny_congr env a q t
  | _, .op2 o a b, q, t => by
    have q' := q
    simp only [FExp.noMinMax, Bool.and_eq_true] at q'
    obtain ⟨t1, t2, t3⟩ := t
    refine ⟨noTiny_congr env a q'.1.2 t1, noTiny_congr env b q'.2 t2, ?_⟩
    have ea : a.den neonImpl env = a.den ieee env := FExp.den_congr (I := neonImpl) (J := ieee) rfl env a q'.1.2
    have eb : b.den neonImpl env = b.den ieee env := FExp.den_congr (I := neonImpl) (J := ieee) rfl env b q'.2
    rw [ea, eb]
    cases o <;> first | exact t3 | (exact absurd q'.1.1 (by decide))
  | _, .fmadd a b c, q, t => by
    simp only [FExp.noMinMax, Bool.and_eq_true] at q
    exact ⟨noTiny_congr env a q.1.1 t.1, noTiny_congr env b q.1.2 t.2.1, noTiny_congr env c q.2 t.2.2⟩
  | _, .fmsub a b c, q, t => by
    simp only [FExp.noMinMax, Bool.and_eq_true] at q
    exact ⟨noTiny_congr env a q.1.1 t.1, noTiny_congr env b q.1.2 t.2.1, noTiny_congr env c q.2 t.2.2⟩
  | _, .cmp _ a b, q, t => by
    simp only [FExp.noMinMax, Bool.and_eq_true] at q
    obtain ⟨t1, t2, t3, t4⟩ := t
    have ea : a.den neonImpl env = a.den ieee env := FExp.den_congr (I := neonImpl) (J := ieee) rfl env a q.1
    have eb : b.den neonImpl env = b.den ieee env := FExp.den_congr (I := neonImpl) (J := ieee) rfl env b q.2
    exact ⟨noTiny_congr env a q.1 t1, noTiny_congr env b q.2 t2, ea ▸ t3, eb ▸ t4⟩
  | _, .isnan a, q, t => noTiny_congr env a q t
  | _, .isfinite a, q, t => noTiny_congr env a q t
  | _, .opm _ a b, q, t => by
    simp only [FExp.noMinMax, Bool.and_eq_true] at q
    exact ⟨noTiny_congr env a q.1 t.1, noTiny_congr env b q.2 t.2⟩
  | _, .notm a, q, t => noTiny_congr env a q t
  | _, .andm a m, q, t => by
    simp only [FExp.noMinMax, Bool.and_eq_true] at q
    exact ⟨noTiny_congr env a q.1 t.1, noTiny_congr env m q.2 t.2⟩
  | _, .andnotm a m, q, t => by
    simp only [FExp.noMinMax, Bool.and_eq_true] at q
    exact ⟨noTiny_congr env a q.1 t.1, noTiny_congr env m q.2 t.2⟩
  | _, .blend a b m, q, t => by
    simp only [FExp.noMinMax, Bool.and_eq_true] at q
    exact ⟨noTiny_congr env a q.1.1 t.1, noTiny_congr env b q.1.2 t.2.1, noTiny_congr env m q.2 t.2.2⟩

end Spec.Ftz

/-- **C68.** Where the IEEE computation meets no subnormal number in arithmetic or comparisons, 32-bit NEON computes what IEEE arithmetic does,
with the choices of NEON for `min` and `max` (which are choices IEEE arithmetic may make). -/
theorem C68_same {c : Cfg} (h : c.Ok) (hz : c.neonZ = true) {N : Nat} (hN : N % 4 = 0) (eqz : Bool) (e : FExp 32 .vec) (ok : Ftz.Ok e = true)
    (jv : Nat → Vec 32 4) (jm : Nat → Mask 32 4) (env : Nat → Vec 32 N) :
    (neonImpl : Impl 32).Ok ∧ ∃ v, evalZ c eqz jv jm e env = some v ∧
      ∀ j, NoTiny neonImpl (fun x => env x j) e → v j = e.den neonImpl (fun x => env x j) :=
  ⟨neonImpl_ok (Or.inl rfl), _, C68_eval h hz hN eqz e ok jv jm env, fun _ t => den_clear (Or.inl rfl) eqz _ e t⟩

/-- **C68.** And, without `min` and `max`, the same bits as every other build. -/
theorem C68_portable {c c' : Cfg} (h : c.Ok) (hz : c.neonZ = true) {N : Nat} (hN : N % 4 = 0) (h' : c'.Ok) (hN' : c'.FLen 32 N)
    (hm : ¬ c'.mulByFma 32 (c'.regK .flt 32 N)) (E : Est) (eqz : Bool) (e : FExp 32 .vec) (ok : Ftz.Ok e = true)
    (ok' : e.Ok c' (c'.regK .flt 32 N)) (he : e.noMinMax = true)
    (jv : Nat → Vec 32 4) (jm : Nat → Mask 32 4) (jv' : Nat → Vec 32 ((c'.regK .flt 32 N).lanes 32)) (jm' : Nat → Mask 32 ((c'.regK .flt 32 N).lanes 32))
    (env : Nat → Vec 32 N) :
    ∃ v v', evalZ c eqz jv jm e env = some v ∧ evalF c' E 32 N jv' jm' e env = some v' ∧
      ∀ j, NoTiny ieee (fun x => env x j) e → v j = v' j :=
  ⟨_, _, C68_eval h hz hN eqz e ok jv jm env, C56_ieee h' (Or.inl rfl) hN' E hm e he jv' jm' env ok', fun _ t =>
    (den_clear (Or.inl rfl) eqz _ e (noTiny_congr _ e he t)).trans (FExp.den_congr (I := neonImpl) (J := ieee) rfl _ e he)⟩

/-! ## Something tiny: how far off -/

theorem off_flushed {s t d e : ℝ} (ht : 0 < t) (he : |e| ≤ d) (hd : d ≤ 1 / 2) {a : ℝ} (h1 : |a - s| ≤ 2 * t) (h2 : |a * (1 + e)| < t) :
    |0 - s| ≤ d * |s| + 3 * t := by
  rw [zero_sub, abs_neg]
  have hp : 0 < 1 + e := by have := (abs_le.1 he).1; linarith
  rw [abs_mul, abs_of_pos hp] at h2
  have h3 : |s| ≤ |a| + 2 * t := by
    have := abs_sub_abs_le_abs_sub s a
    rw [abs_sub_comm] at h1; linarith
  have h4 : |a| * (1 - d) ≤ |a| * (1 + e) := mul_le_mul_of_nonneg_left (by have := (abs_le.1 he).1; linarith) (abs_nonneg _)
  have h5 : |s| * (1 - d) ≤ (|a| + 2 * t) * (1 - d) := mul_le_mul_of_nonneg_right h3 (by linarith)
  have h6 : 0 ≤ d * t := mul_nonneg (le_trans (abs_nonneg _) he) ht.le
  nlinarith

theorem off_kept {s t d e : ℝ} (ht : 0 < t) (he : |e| ≤ d) (hd : d ≤ 1 / 2) {a : ℝ} (h1 : |a - s| ≤ 2 * t) :
    |a * (1 + e) - s| ≤ d * |s| + 3 * t := by
  have h3 : |a| ≤ |s| + 2 * t := by
    have := abs_sub_abs_le_abs_sub a s
    linarith
  have h4 : |a * (1 + e) - s| ≤ |a - s| + |a * e| := by
    have : a * (1 + e) - s = (a - s) + a * e := by ring
    rw [this]; exact abs_add_le _ _
  have h5 : |a * e| ≤ (|s| + 2 * t) * d := by
    rw [abs_mul]; exact mul_le_mul h3 he (abs_nonneg _) (by positivity)
  have h6 : d * t ≤ 1 / 2 * t := mul_le_mul_of_nonneg_right hd ht.le
  nlinarith

section
variable (hw : FW w)
include hw

theorem real_flush (x : BitVec w) : real (flush x) = if mag x < 2 ^ (prec w - 1) then 0 else real x := by
  unfold real
  rw [num_flush hw]
  split_ifs <;> simp

theorem real_tiny {x : BitVec w} (hx : mag x < 2 ^ (prec w - 1)) : |real x| < tiny w := by
  have h1 : (0 : ℝ) < 2 ^ unit w := by positivity
  have h2 : |(num x : ℝ)| < 2 ^ (prec w - 1) := by
    have : |(num x : ℝ)| = (((num x).natAbs : ℕ) : ℝ) := by rw [Nat.cast_natAbs]; push_cast; rfl
    rw [this, num_low hx]
    exact_mod_cast hx
  rw [← tiny_unit hw, real_eqW, abs_mul, abs_of_pos h1] at h2
  exact lt_of_mul_lt_mul_right h2 h1.le

theorem flush_err (x : BitVec w) : |real (flush x) - real x| < tiny w := by
  rw [real_flush hw]
  split_ifs with g
  · rw [zero_sub, abs_neg]; exact real_tiny hw g
  · rw [sub_self, abs_zero]; exact tiny_pos w

theorem flush_le (x : BitVec w) : |real (flush x)| ≤ |real x| := by
  rw [real_flush hw]
  split_ifs with g
  · rw [abs_zero]; exact abs_nonneg _
  · exact le_refl _

/-- **C68.** A sum is off by at most the IEEE rounding error and three times the least normal number. -/
theorem C68_add_error {x y : BitVec w} (fx : isFinite x = true) (fy : isFinite y = true) (hb : |real x| + |real y| < huge w) :
    isFinite (Ftz.add x y) = true ∧ |real (Ftz.add x y) - (real x + real y)| ≤ eps w * |real x + real y| + 3 * tiny w := by
  have h2 : |real (flush x) + real (flush y)| < huge w :=
    lt_of_le_of_lt (abs_add_le _ _) (lt_of_le_of_lt (add_le_add (flush_le hw x) (flush_le hw y)) hb)
  obtain ⟨hf, ε, he, hr⟩ := add_relW hw ((flush_finite hw x).trans fx) ((flush_finite hw y).trans fy) h2
  refine ⟨(flush_finite hw _).trans hf, ?_⟩
  have e1 := flush_err hw x
  have e2 := flush_err hw y
  have ht := tiny_pos w
  have hep := eps_pos w
  have hel := eps_le hw
  unfold Ftz.add
  generalize Fp.add (flush x) (flush y) = s at hr ⊢
  rw [real_flush hw]
  have hs : |real (flush x) + real (flush y) - (real x + real y)| ≤ 2 * tiny w := by
    have : real (flush x) + real (flush y) - (real x + real y) = (real (flush x) - real x) + (real (flush y) - real y) := by ring
    rw [this]
    have := abs_add_le (real (flush x) - real x) (real (flush y) - real y)
    linarith
  split_ifs with g
  · exact off_flushed ht he hel hs (hr ▸ real_tiny hw g)
  · rw [hr]
    exact off_kept ht he hel hs

theorem real_neg (x : BitVec w) : real (Fp.neg x) = -real x := by
  unfold real
  rw [num_neg hw]
  push_cast
  ring

theorem flush_neg (x : BitVec w) : flush (Fp.neg x) = Fp.neg (flush x) := by
  have e1 : mag (Fp.neg x) = mag x := neg_mag hw x
  by_cases g : Subnormal x
  · have g' : Subnormal (Fp.neg x) := by unfold Subnormal at g ⊢; rwa [e1]
    rw [flush_tiny g, flush_tiny g']
    refine ext_sm hw ?_ ?_
    · rw [mk_msb hw (by positivity), neg_msb hw, neg_msb hw, mk_msb hw (by positivity)]
    · rw [mk_mag hw (by positivity), neg_mag hw, mk_mag hw (by positivity)]
  · have g' : ¬ Subnormal (Fp.neg x) := by unfold Subnormal at g ⊢; rwa [e1]
    rw [flush_of g, flush_of g']

/-- **C68.** A difference likewise. -/
theorem C68_sub_error {x y : BitVec w} (fx : isFinite x = true) (fy : isFinite y = true) (hb : |real x| + |real y| < huge w) :
    isFinite (Ftz.sub x y) = true ∧ |real (Ftz.sub x y) - (real x - real y)| ≤ eps w * |real x - real y| + 3 * tiny w := by
  have e : Ftz.sub x y = Ftz.add x (Fp.neg y) := by
    unfold Ftz.sub Ftz.add Fp.sub
    rw [flush_neg hw]
  have := C68_add_error hw fx (y := Fp.neg y) (by rw [isFinite_iff, neg_mag hw]; exact isFinite_iff.1 fy) (by rw [real_neg hw, abs_neg]; exact hb)
  rw [real_neg hw, ← sub_eq_add_neg] at this
  rw [e]; exact this

/-- **C68.** A product is off by at most the IEEE rounding error and the least normal number, or, if an operand is subnormal, that multiple of it
which the other operand is. -/
theorem C68_mul_error {x y : BitVec w} (fx : isFinite x = true) (fy : isFinite y = true) (hb : |real x * real y| < huge w) :
    isFinite (Ftz.mul x y) = true ∧
      |real (Ftz.mul x y) - real x * real y| ≤ eps w * |real x * real y| + tiny w * max 1 (max |real x| |real y|) := by
  have ht := tiny_pos w
  have hep := eps_pos w
  have m1 : tiny w ≤ tiny w * max 1 (max |real x| |real y|) := le_mul_of_one_le_right ht.le (le_max_left _ _)
  have m2 : tiny w * |real x| ≤ tiny w * max 1 (max |real x| |real y|) :=
    mul_le_mul_of_nonneg_left (le_trans (le_max_left _ _) (le_max_right _ _)) ht.le
  have m3 : tiny w * |real y| ≤ tiny w * max 1 (max |real x| |real y|) :=
    mul_le_mul_of_nonneg_left (le_trans (le_max_right _ _) (le_max_right _ _)) ht.le
  have hnn : 0 ≤ eps w * |real x * real y| := mul_nonneg hep.le (abs_nonneg _)
  have z0 : ∀ s, isFinite (mk w s 0) = true ∧ real (mk w s 0) = 0 := fun s => by
    refine ⟨?_, ?_⟩
    · rw [isFinite_iff, mk_mag hw (by positivity)]; rcases hw with e | e <;> subst e <;> decide
    · rw [real_zero_iffW, num_mk hw (by positivity), numMag_zero]; simp
  unfold Ftz.mul
  split_ifs with g
  · refine ⟨(z0 _).1, ?_⟩
    rw [(z0 _).2, zero_sub, abs_neg]
    by_cases gx : mag x < 2 ^ (prec w - 1)
    · have := real_tiny hw gx
      have : |real x * real y| ≤ tiny w * |real y| := by rw [abs_mul]; exact mul_le_mul_of_nonneg_right this.le (abs_nonneg _)
      linarith
    by_cases gy : mag y < 2 ^ (prec w - 1)
    · have := real_tiny hw gy
      have : |real x * real y| ≤ tiny w * |real x| := by rw [abs_mul, mul_comm (tiny w)]; exact mul_le_mul_of_nonneg_left this.le (abs_nonneg _)
      linarith
    have g3 := g.2.2
    rw [flush_of fun q => gx q.2, flush_of fun q => gy q.2] at g3
    have : |real x * real y| < tiny w := by
      have h1 : (0 : ℝ) < 2 ^ unit w := by positivity
      have h2 : |((num x * num y : Int) : ℝ)| < 2 ^ (prec w - 1 + unit w) := by
        have e : |((num x * num y : Int) : ℝ)| = (((num x * num y).natAbs : ℕ) : ℝ) := by rw [Nat.cast_natAbs]; push_cast; rfl
        rw [e]
        exact_mod_cast g3
      push_cast at h2
      rw [real_eqW, real_eqW, pow_add, ← tiny_unit hw] at h2
      have e : real x * 2 ^ unit w * (real y * 2 ^ unit w) = real x * real y * (2 ^ unit w * 2 ^ unit w) := by ring
      rw [e, abs_mul, abs_of_pos (mul_pos h1 h1), mul_assoc] at h2
      exact lt_of_mul_lt_mul_right h2 (mul_pos h1 h1).le
    linarith
  · have g3 : 2 ^ (prec w - 1 + unit w) ≤ (num (flush x) * num (flush y)).natAbs := by
      by_contra q
      exact g ⟨fx, fy, by omega⟩
    have hp : (0 : ℕ) < 2 ^ (prec w - 1 + unit w) := by positivity
    have gx : ¬ mag x < 2 ^ (prec w - 1) := fun q => by
      rw [num_flush hw, if_pos q, Int.zero_mul, Int.natAbs_zero] at g3; omega
    have gy : ¬ mag y < 2 ^ (prec w - 1) := fun q => by
      rw [num_flush hw y, if_pos q, Int.mul_zero, Int.natAbs_zero] at g3; omega
    rw [flush_of fun q => gx q.2, flush_of fun q => gy q.2] at g3 ⊢
    have h1 : tiny w ≤ |real x * real y| := by
      have h1 : (0 : ℝ) < 2 ^ unit w := by positivity
      have h2 : (2 : ℝ) ^ (prec w - 1 + unit w) ≤ |((num x * num y : Int) : ℝ)| := by
        have e : |((num x * num y : Int) : ℝ)| = (((num x * num y).natAbs : ℕ) : ℝ) := by rw [Nat.cast_natAbs]; push_cast; rfl
        rw [e]
        exact_mod_cast g3
      push_cast at h2
      rw [real_eqW, real_eqW, pow_add, ← tiny_unit hw] at h2
      have e : real x * 2 ^ unit w * (real y * 2 ^ unit w) = real x * real y * (2 ^ unit w * 2 ^ unit w) := by ring
      rw [e, abs_mul, abs_of_pos (mul_pos h1 h1), mul_assoc] at h2
      exact le_of_mul_le_mul_right h2 (mul_pos h1 h1)
    obtain ⟨hf, ε, he, hr⟩ := mul_relW hw fx fy h1 hb
    refine ⟨hf, ?_⟩
    rw [hr]
    have : real x * real y * (1 + ε) - real x * real y = ε * (real x * real y) := by ring
    rw [this, abs_mul]
    have := mul_le_mul_of_nonneg_right he (abs_nonneg (real x * real y))
    linarith

/-- **C68.** Comparisons are never inverted: what 32-bit NEON calls less is less, what is not above is not called above, equal numbers are equal. -/
theorem C68_compare (eqz : Bool) (x y : BitVec w) :
    (Ftz.rel eqz .lt x y = true → Rel.onFlt .lt x y = true) ∧ (Rel.onFlt .le x y = true → Ftz.rel eqz .le x y = true) ∧
    (Rel.onFlt .eq x y = true → Ftz.rel eqz .eq x y = true) ∧ (Ftz.rel eqz .ne x y = true → Rel.onFlt .ne x y = true) ∧
    (Ftz.rel eqz .gt x y = true → Rel.onFlt .gt x y = true) ∧ (Rel.onFlt .ge x y = true → Ftz.rel eqz .ge x y = true) := by
  have hn := flush_nan hw x
  have hm := flush_nan hw y
  have k1 : key (flush x) < key (flush y) → key x < key y := fun q => by
    by_contra c
    have := key_mono hw (x := y) (y := x) (by omega)
    omega
  have k2 : key (flush y) < key (flush x) → key y < key x := fun q => by
    by_contra c
    have := key_mono hw (x := x) (y := y) (by omega)
    omega
  have k3 : key x ≤ key y → key (flush x) ≤ key (flush y) := key_mono hw
  have k4 : key y ≤ key x → key (flush y) ≤ key (flush x) := key_mono hw
  have k5 : key x = key y → key (flush x) = key (flush y) := fun q => by
    have := k3 (by omega); have := k4 (by omega); omega
  refine ⟨?_, ?_, ?_, ?_, ?_, ?_⟩ <;> cases eqz <;> simp only [Ftz.rel, Rel.onFlt, Rel.onInt, hn, hm] <;>
    (try cases isNaN x) <;> (try cases isNaN y) <;> simp <;> (try omega)

end
end Simdpp
