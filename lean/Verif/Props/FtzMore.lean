import Verif.Props.FtzSame

/-!
# C68: differences that vanish, rounding to integers, loops
-/

namespace Simdpp
open Spec Spec.FProg Spec.Fp Spec.Flt Spec.Ftz

variable {w n K L : Nat}

/-! ## Differences -/

section
variable (hw : FW w)
include hw

omit hw in
theorem rndMag_ge_min (hi : 2 ^ (prec w - 1) < infBits w) {m : Nat} (hm : 2 ^ (prec w - 1) ≤ m) : 2 ^ (prec w - 1) ≤ rndMag w 0 m := by
  have hp : 1 ≤ prec w := by unfold prec; split_ifs <;> decide
  have hl : prec w ≤ len m := by
    by_contra q
    have := lt_of_lt_of_le (lt_len m) (Nat.pow_le_pow_right (n := 2) (by decide) (show len m ≤ prec w - 1 by omega))
    omega
  have hg := len_ge (m := m) (by have : 0 < 2 ^ (prec w - 1) := by positivity
                                 omega)
  unfold rndMag
  dsimp only
  rw [Nat.max_eq_left (Nat.zero_le _), Nat.sub_zero]
  refine le_min hi.le (le_trans ?_ (Nat.le_add_left _ _))
  have hd : 2 ^ (prec w - 1) ≤ m / 2 ^ (len m - prec w) := by
    rw [Nat.le_div_iff_mul_le (by positivity), ← pow_add, show prec w - 1 + (len m - prec w) = len m - 1 by omega]
    exact hg
  unfold rne
  dsimp only
  split_ifs <;> omega

/-- **C68.** A difference is zero exactly when the operands, subnormal ones counting as zero, are less than the least normal number apart: unlike in
IEEE arithmetic, `x - y == 0` does not say `x == y`. -/
theorem C68_sub_zero {x y : BitVec w} (fx : isFinite x = true) (fy : isFinite y = true) :
    mag (Ftz.sub x y) = 0 ↔ |real (flush x) - real (flush y)| < tiny w := by
  have h1 : (0 : ℝ) < 2 ^ unit w := by positivity
  have hp0 : 0 < 2 ^ (prec w - 1) := by positivity
  obtain ⟨nx, ix⟩ := not_nan_of_finite ((flush_finite hw x).trans fx)
  obtain ⟨ny, iy⟩ := not_nan_of_finite ((flush_finite hw y).trans fy)
  obtain ⟨c1, c2, c3⟩ := neg_class hw (flush y)
  have eR : |real (flush x) - real (flush y)| < tiny w ↔ (num (flush x) + num (Fp.neg (flush y))).natAbs < 2 ^ (prec w - 1) := by
    rw [num_neg hw, ← sub_eq_add_neg]
    have e : |((num (flush x) - num (flush y) : Int) : ℝ)| = (((num (flush x) - num (flush y)).natAbs : ℕ) : ℝ) := by
      rw [Nat.cast_natAbs]; push_cast; rfl
    have e2 : |((num (flush x) - num (flush y) : Int) : ℝ)| = |real (flush x) - real (flush y)| * 2 ^ unit w := by
      push_cast
      rw [real_eqW, real_eqW, ← sub_mul, abs_mul, abs_of_pos h1]
    have e3 : (num (flush x) - num (flush y)).natAbs < 2 ^ (prec w - 1) ↔ ((num (flush x) - num (flush y)).natAbs : ℝ) < 2 ^ (prec w - 1) := by
      constructor <;> intro q <;> exact_mod_cast q
    rw [e3, ← e, e2, ← tiny_unit hw]
    exact (mul_lt_mul_iff_of_pos_right h1).symm
  rw [eR]
  unfold Ftz.sub
  rw [flush_mag hw]
  unfold Fp.sub Fp.add
  rw [c1, c2]
  simp only [nx, ny, ix, iy, Bool.or_self, Bool.false_eq_true, if_false]
  generalize num (flush x) + num (Fp.neg (flush y)) = z
  by_cases h0 : z = 0
  · rw [if_pos h0, h0, mk_mag hw (by positivity)]
    simp
  · rw [if_neg h0, round_mag hw]
    by_cases g : z.natAbs < 2 ^ (prec w - 1)
    · have hle : rndMag w 0 z.natAbs = z.natAbs := by
        unfold rndMag
        have hl := len_le g
        have hq : max (len z.natAbs - prec w) 0 = 0 := by omega
        dsimp only
        rw [hq, Nat.sub_zero, Nat.zero_mul, Nat.zero_add]
        have := rne_exact z.natAbs 0
        rw [pow_zero, Nat.mul_one] at this
        rw [this]
        have := pre_lt_inf hw
        omega
      rw [hle, if_pos g]
      simp [g]
    · have := rndMag_ge_min (pre_lt_inf hw) (m := z.natAbs) (by omega)
      rw [if_neg (by omega)]
      constructor
      · intro q; omega
      · intro q; omega

end

/-! ## Rounding to integers -/

section
variable {c : Cfg} (h : c.Ok) (hz : c.neonZ = true)
include h hz

theorem neonZ_emu : c.emuF32 := by
  unfold Cfg.neonZ Cfg.neon32 at hz
  simp only [Bool.and_eq_true, Bool.not_eq_true'] at hz
  obtain ⟨⟨h1, h2⟩, h3⟩ := hz
  refine ⟨?_, ?_, Or.inr (Or.inl h3)⟩
  · cases q : c.sse41
    · rfl
    · exfalso; cfg_absurd h
  · unfold Cfg.neon64; rw [h2, Bool.and_false]

omit h hz in
theorem flush_abs (x : BitVec 32) : flush (Hw.fabs x) = if Subnormal x then mk 32 false 0 else Hw.fabs x := by
  have hw : FW 32 := Or.inl rfl
  have em : mag (Hw.fabs x) = mag x := by rw [fabs_eq_mk hw, mk_mag hw (mag_lt hw x)]
  have es : (Hw.fabs x).msb = false := by rw [fabs_eq_mk hw, mk_msb hw (mag_lt hw x)]
  by_cases g : Subnormal x
  · have g' : Subnormal (Hw.fabs x) := by unfold Subnormal at g ⊢; rwa [em]
    rw [if_pos g, flush_tiny g', es]
  · have g' : ¬ Subnormal (Hw.fabs x) := by unfold Subnormal at g ⊢; rwa [em]
    rw [if_neg g, flush_of g']

omit h hz in
theorem zmask32 (x : BitVec 32) : (fle (flush (Hw.fabs x)) (flush 0x4afffffe#32) && fgt (flush (Hw.fabs x)) (flush 0)) =
    (decide (mag x ≤ 0x4afffffe) && decide (0 < mag x) && decide (¬ Subnormal x)) := by
  have e1 : flush 0x4afffffe#32 = 0x4afffffe#32 := by decide +kernel
  have e2 : flush (0 : BitVec 32) = 0 := by decide +kernel
  rw [flush_abs, e1, e2]
  by_cases g : Subnormal x
  · rw [if_pos g, decide_eq_false (show ¬ ¬ Subnormal x from fun q => q g), Bool.and_false]
    decide +kernel
  · rw [if_neg g, decide_eq_true g, Bool.and_true, mask32]

omit h hz in
theorem zmask32t (x : BitVec 32) : (flt (flush (Hw.fabs x)) (flush 0x4b000000#32) && fgt (flush (Hw.fabs x)) (flush 0)) =
    (decide (mag x < 0x4b000000) && decide (0 < mag x) && decide (¬ Subnormal x)) := by
  have e1 : flush 0x4b000000#32 = 0x4b000000#32 := by decide +kernel
  have e2 : flush (0 : BitVec 32) = 0 := by decide +kernel
  rw [flush_abs, e1, e2]
  by_cases g : Subnormal x
  · rw [if_pos g, decide_eq_false (show ¬ ¬ Subnormal x from fun q => q g), Bool.and_false]
    decide +kernel
  · rw [if_neg g, decide_eq_true g, Bool.and_true, mask32t]

theorem z_le_eq (a b : Vec 32 n) : z_cmp_le c a b = some (Mask.of c .flt .r128 (fun i => fle (flush (a i)) (flush (b i)))) := by
  unfold z_cmp_le; rw [if_pos hz]; exact retV_eq (neonZ_maskVec h hz) (sel_eq rfl)
theorem z_lt_eq (a b : Vec 32 n) : z_cmp_lt c a b = some (Mask.of c .flt .r128 (fun i => flt (flush (a i)) (flush (b i)))) := by
  unfold z_cmp_lt; rw [if_pos hz]; exact retV_eq (neonZ_maskVec h hz) (sel_eq rfl)
theorem z_gt_eq (a b : Vec 32 n) : z_cmp_gt c a b = some (Mask.of c .flt .r128 (fun i => fgt (flush (a i)) (flush (b i)))) := by
  unfold z_cmp_gt; rw [if_pos hz]; exact retV_eq (neonZ_maskVec h hz) (sel_eq rfl)

theorem z_floor_eq (hn : n % 2 = 0) (a : Vec 32 n) :
    z_floor c a = some (fun i => if Subnormal (a i) then a i else floor32lane c.cvtF (a i)) := by
  have he := neonZ_emu h hz
  unfold z_floor
  refine bind_of (i_fabs_eq h fw32 (r := .r128) rfl a) _ |>.trans ?_
  refine bind_of (z_le_eq h hz _ _) _ |>.trans ?_
  refine bind_of (z_gt_eq h hz _ _) _ |>.trans ?_
  refine bind_of (i_bit_and_mm_eq h (k := .flt) (Or.inl rfl) (r := .r128) rfl _ _) _ |>.trans ?_
  refine bind_of (i_shift_r_eq h false iw32 (r := .r128) rfl hn a (by decide)) _ |>.trans ?_
  refine bind_of (i_isub_eq h iw32 (r := .r128) rfl _ _) _ |>.trans ?_
  refine bind_of (f32i32_emu h he _) _ |>.trans ?_
  refine bind_of (i_isub_eq h iw32 (r := .r128) rfl _ _) _ |>.trans ?_
  refine bind_of (i32f32_emu h he _) _ |>.trans ?_
  refine (i_blend_vm_eq h (k := .flt) (Or.inl rfl) (r := .r128) rfl _ _ _).trans ?_
  congr 1
  funext i
  have e := zmask32 (a i)
  show (if (fle (flush (Hw.fabs (a i))) (flush 0x4afffffe#32) && fgt (flush (Hw.fabs (a i))) (flush 0)) = true then _ else _) = _
  rw [e]
  by_cases g : Subnormal (a i)
  · rw [if_pos g, decide_eq_false (show ¬ ¬ Subnormal (a i) from fun q => q g), Bool.and_false, if_neg Bool.false_ne_true]
  · rw [if_neg g, decide_eq_true g, Bool.and_true]
    unfold floor32lane
    rw [← shr31]

theorem z_ceil_eq (hn : n % 2 = 0) (a : Vec 32 n) :
    z_ceil c a = some (fun i => if Subnormal (a i) then a i else ceil32lane c.cvtF (a i)) := by
  have he := neonZ_emu h hz
  unfold z_ceil
  refine bind_of (i_fabs_eq h fw32 (r := .r128) rfl a) _ |>.trans ?_
  refine bind_of (z_le_eq h hz _ _) _ |>.trans ?_
  refine bind_of (z_gt_eq h hz _ _) _ |>.trans ?_
  refine bind_of (i_bit_and_mm_eq h (k := .flt) (Or.inl rfl) (r := .r128) rfl _ _) _ |>.trans ?_
  refine bind_of (i_shift_r_eq h false iw32 (r := .r128) rfl hn a (by decide)) _ |>.trans ?_
  refine bind_of (i_bit_xor_eq h (k := .int) iw32 (r := .r128) rfl _ _) _ |>.trans ?_
  refine bind_of (i_isub_eq h iw32 (r := .r128) rfl _ _) _ |>.trans ?_
  refine bind_of (f32i32_emu h he _) _ |>.trans ?_
  refine bind_of (i_iadd_eq h iw32 (r := .r128) rfl _ _) _ |>.trans ?_
  refine bind_of (i32f32_emu h he _) _ |>.trans ?_
  refine (i_blend_vm_eq h (k := .flt) (Or.inl rfl) (r := .r128) rfl _ _ _).trans ?_
  congr 1
  funext i
  have e := zmask32 (a i)
  show (if (fle (flush (Hw.fabs (a i))) (flush 0x4afffffe#32) && fgt (flush (Hw.fabs (a i))) (flush 0)) = true then _ else _) = _
  rw [e]
  by_cases g : Subnormal (a i)
  · rw [if_pos g, decide_eq_false (show ¬ ¬ Subnormal (a i) from fun q => q g), Bool.and_false, if_neg Bool.false_ne_true]
  · rw [if_neg g, decide_eq_true g, Bool.and_true]
    unfold ceil32lane
    have e : (if (a i).msb then 0 else 1) = bshr false (a i) 31 ^^^ 1#32 := by
      rw [shr31]; split_ifs <;> rfl
    rw [e]
    rfl

theorem z_trunc_eq (a : Vec 32 n) :
    z_trunc c a = some (fun i => if Subnormal (a i) then a i else trunc32lane c.cvtF (a i)) := by
  have he := neonZ_emu h hz
  unfold z_trunc
  refine bind_of (i_fabs_eq h fw32 (r := .r128) rfl a) _ |>.trans ?_
  refine bind_of (z_lt_eq h hz _ _) _ |>.trans ?_
  refine bind_of (z_gt_eq h hz _ _) _ |>.trans ?_
  refine bind_of (i_bit_and_mm_eq h (k := .flt) (Or.inl rfl) (r := .r128) rfl _ _) _ |>.trans ?_
  refine bind_of (f32i32_emu h he _) _ |>.trans ?_
  refine bind_of (i32f32_emu h he _) _ |>.trans ?_
  refine (i_blend_vm_eq h (k := .flt) (Or.inl rfl) (r := .r128) rfl _ _ _).trans ?_
  congr 1
  funext i
  have e := zmask32t (a i)
  show (if (flt (flush (Hw.fabs (a i))) (flush 0x4b000000#32) && fgt (flush (Hw.fabs (a i))) (flush 0)) = true then _ else _) = _
  rw [e]
  by_cases g : Subnormal (a i)
  · rw [if_pos g, decide_eq_false (show ¬ ¬ Subnormal (a i) from fun q => q g), Bool.and_false, if_neg Bool.false_ne_true]
  · rw [if_neg g, decide_eq_true g, Bool.and_true]
    unfold trunc32lane
    rfl

/-- **C68.** `trunc` on 32-bit NEON: right on every number that is not subnormal; a subnormal number is returned as it is (an IEEE `trunc` gives zero). -/
theorem C68_trunc (a : Vec 32 n) : ∃ res, z_trunc c a = some res ∧
    ∀ i, (Subnormal (a i) → res i = a i) ∧ (¬ Subnormal (a i) → IsRnd Fp.truncInt (a i) (res i)) :=
  ⟨_, z_trunc_eq h hz a, fun i => ⟨fun g => if_pos g, fun g => by
    rw [if_neg g]; exact trunc32lane_spec (cvtF_trunc c) (a i)⟩⟩

/-- **C68.** `floor` likewise, but for the magnitude of C34; an IEEE `floor` takes a negative subnormal number to `-1`. -/
theorem C68_floor (hn : n % 2 = 0) (a : Vec 32 n) : ∃ res, z_floor c a = some res ∧
    ∀ i, (Subnormal (a i) → res i = a i) ∧ (¬ Subnormal (a i) → mag (a i) ≠ 0x4affffff → IsRnd Fp.floorInt (a i) (res i)) :=
  ⟨_, z_floor_eq h hz hn a, fun i => ⟨fun g => if_pos g, fun g g2 => by
    rw [if_neg g]; exact floor32lane_spec (cvtF_trunc c) (a i) g2⟩⟩

/-- **C68.** `ceil` likewise; an IEEE `ceil` takes a positive subnormal number to `1`. -/
theorem C68_ceil (hn : n % 2 = 0) (a : Vec 32 n) : ∃ res, z_ceil c a = some res ∧
    ∀ i, (Subnormal (a i) → res i = a i) ∧ (¬ Subnormal (a i) → mag (a i) ≠ 0x4affffff → IsRnd Fp.ceilInt (a i) (res i)) :=
  ⟨_, z_ceil_eq h hz hn a, fun i => ⟨fun g => if_pos g, fun g g2 => by
    rw [if_neg g]; exact ceil32lane_spec (cvtF_trunc c) (a i) g2⟩⟩

/-- **C68.** The vectorised loop over arrays of `float` is the scalar loop with flush-to-zero arithmetic. -/
theorem C68_kernel {N : Nat} (hN : c.FLen 32 N) (h4 : N % 4 = 0) (eqz : Bool) (e : FExp 32 .vec) (ok : Ftz.Ok e = true) (be : Bool) {V : Nat}
    {p : Nat → Nat} {q cnt : Nat} (m : Mem) {A : Nat → Nat → BitVec 32} (jv : Nat → Vec 32 4) (jm : Nat → Mask 32 4) {P : Nat}
    (hP : P = (cnt + (N - 1)) / N * N)
    (hA : ∀ x, x < V → ∀ j, j < P → Holds m.byte (p x + j * (32 / 8)) (A x j)) (hV : ∀ x, V ≤ x → ∀ j, A x j = 0)
    (hp : ∀ x, x < V → p x % (c.regK .flt 32 N).bytes = 0) (hq : q % (c.regK .flt 32 N).bytes = 0)
    (hb : ∀ x, x < V → m.Block (p x) (P * (32 / 8))) (hbq : m.Block q (P * (32 / 8)))
    (hd : ∀ x, x < V → q ≤ p x ∨ p x + P * (32 / 8) ≤ q) :
    ∃ m', kernel c be .flt true 32 N V (evalZ c eqz jv jm e) p q cnt m = some m' ∧ m'.ok = m.ok ∧
      (∀ j, j < cnt → Holds m'.byte (q + j * (32 / 8)) (Ftz.den eqz (fun x => A x j) e : BitVec 32)) ∧
      ∀ a, a < q ∨ q + cnt * (32 / 8) ≤ a → m'.byte a = m.byte a := by
  obtain ⟨m', e1, e2, e3, e4⟩ := kernel_all h (k := .flt) (Or.inl rfl) hN (ev := evalZ c eqz jv jm e) (F := fun ρ y => y = Ftz.den eqz ρ e) (G := fun _ => True)
    (fun env _ => ⟨_, C68_eval h hz h4 eqz e ok jv jm env, fun _ => rfl⟩) be true m hP hA hV hp hq hb hbq hd (fun _ _ => trivial)
  refine ⟨m', e1, e2, fun j hj => ?_, e4⟩
  obtain ⟨y, ey, hy⟩ := e3 j hj
  exact ey ▸ hy

end

/-! ## Examples -/

theorem Cfg.neonA32_z : Cfg.neonA32.neonZ = true := by decide

/-- `blend(x - y, x * y, x < y)`. -/
def ftzSample : FExp 32 .vec := .blend (.op2 .sub (.var 0) (.var 1)) (.op2 .mul (.var 0) (.var 1)) (.cmp .lt (.var 0) (.var 1))

/-- On 32 lanes: the flush-to-zero computation, and where nothing is tiny the bits of AVX512. -/
example (E : Est) (env : Nat → Vec 32 32) (jv jm jv' jm') : ∃ v v', evalZ Cfg.neonA32 true jv jm ftzSample env = some v ∧
    evalF Cfg.avx512All E 32 32 jv' jm' ftzSample env = some v' ∧ ∀ j, NoTiny ieee (fun x => env x j) ftzSample → v j = v' j :=
  C68_portable Cfg.neonA32_ok Cfg.neonA32_z rfl Cfg.avx512All_ok (Or.inr ⟨2, by decide, by decide +kernel⟩) (fun q => absurd q.2.2.1 (by decide)) E true
    ftzSample rfl ⟨⟨trivial, trivial, trivial⟩, ⟨trivial, trivial, trivial⟩, trivial, trivial⟩ rfl jv jm jv' jm' env

/-- `x = 1`, `y = 2`: nothing tiny, and the result is `-1`. -/
example : NoTiny ieee (fun x => if x = 0 then 0x3f800000#32 else 0x40000000) ftzSample ∧
    den true (fun x => if x = 0 then 0x3f800000#32 else 0x40000000) ftzSample = 0xbf800000#32 := by
  refine ⟨⟨⟨trivial, trivial, ?_⟩, ⟨trivial, trivial, ?_⟩, trivial, trivial, ?_, ?_⟩, ?_⟩
  · show ¬ Subnormal _ ∧ ¬ Subnormal _ ∧ ¬ Subnormal _
    decide +kernel
  · show ¬ Subnormal _ ∧ ¬ Subnormal _ ∧ ¬ Subnormal _ ∧ mag _ ≠ _
    decide +kernel
  all_goals decide +kernel

/-- **C68.** Loss of gradual underflow: two different normal numbers whose difference is zero. -/
theorem C68_underflow_example : Rel.onFlt .lt 0x00800000#32 0x00800001#32 = true ∧ Ftz.rel true .lt 0x00800000#32 0x00800001#32 = true ∧
    mag (Ftz.sub 0x00800000#32 0x00800001#32) = 0 ∧ mag (Fp.sub 0x00800000#32 0x00800001#32) = 1 := by decide +kernel

/-- **C68.** With `==` in scalar code and `<` in the vector unit, two numbers may be neither less, nor equal, nor greater. -/
theorem C68_trichotomy_example : Ftz.rel false .lt 1#32 2#32 = false ∧ Ftz.rel false .eq 1#32 2#32 = false ∧ Ftz.rel false .gt 1#32 2#32 = false ∧
    Ftz.rel true .eq 1#32 2#32 = true := by decide +kernel

/-- **C68.** `floor` of a negative subnormal number is that number, not `-1`. -/
theorem C68_floor_example : z_floor Cfg.neonA32 (Vec.splat 0x80000001#32 : Vec 32 4) = some (Vec.splat 0x80000001#32) ∧
    Fp.floorInt 0x80000001#32 = -1 := by
  refine ⟨?_, by decide +kernel⟩
  rw [z_floor_eq Cfg.neonA32_ok Cfg.neonA32_z rfl]
  exact congrArg some (funext fun i => if_pos (show Subnormal 0x80000001#32 by decide +kernel))

end Simdpp
