import Verif.Props.FRound32

/-!
# C34: `floor`, `ceil`, `trunc` on `double`
-/

namespace Simdpp
open Spec Spec.Flt Spec.Fp Sh

variable {n : Nat}

/-- The bits below the binary point of a number of magnitude at least one, as computed by the emulations. -/
def cbLane (m x : BitVec 64) : BitVec 64 :=
  (Fp.add (Hw.fabs x &&& 0x7ff0000000000000#64) 0x3ff0000000000000#64 - 1) &&& ~~~ m

theorem clear_tab : ∀ e : Fin 52,
    (Fp.add (BitVec.ofNat 64 ((1023 + e.val) * 2 ^ 52)) 0x3ff0000000000000#64 - 1) &&& ~~~ 0x7ff0000000000000#64 = BitVec.ofNat 64 (2 ^ (52 - e.val) - 1) ∧
    (Fp.add (BitVec.ofNat 64 ((1023 + e.val) * 2 ^ 52)) 0x3ff0000000000000#64 - 1) &&& ~~~ 0xfff0000000000000#64 = BitVec.ofNat 64 (2 ^ (52 - e.val) - 1) := by
  decide +kernel

/-- A number from 1 to below `2 ^ 52`: exponent and fraction. -/
theorem mag_split {x : BitVec 64} (h1 : 0x3ff0000000000000 ≤ mag x) (h2 : mag x < 0x4330000000000000) :
    ∃ e f, e < 52 ∧ f < 2 ^ 52 ∧ mag x = (1023 + e) * 2 ^ 52 + f := by
  refine ⟨mag x / 2 ^ 52 - 1023, mag x % 2 ^ 52, ?_, ?_, ?_⟩ <;> norm_num <;> omega

theorem expBits {x : BitVec 64} {e f : Nat} (he : e < 52) (hf : f < 2 ^ 52) (hm : mag x = (1023 + e) * 2 ^ 52 + f) :
    Hw.fabs x &&& 0x7ff0000000000000#64 = BitVec.ofNat 64 ((1023 + e) * 2 ^ 52) := by
  have hl := mag_lt fw64 x
  have e1 : ∀ y : BitVec 64, y.toNat < 2 ^ 63 → y &&& 0x7ff0000000000000#64 = (y >>> 52) <<< 52 := by
    intro y hy
    have h63 : y.getLsbD 63 = false := by
      exact Nat.testBit_lt_two_pow hy
    apply BitVec.eq_of_getLsbD_eq
    intro k hk
    have : ∀ k : Fin 64, (0x7ff0000000000000#64).getLsbD k.val = (decide (52 ≤ k.val) && decide (k.val < 63)) := by decide
    rw [BitVec.getLsbD_and, this ⟨k, hk⟩, BitVec.getLsbD_shiftLeft, BitVec.getLsbD_ushiftRight]
    by_cases g : k < 52
    · simp [g]
    · have : 52 + (k - 52) = k := by omega
      rw [this]
      by_cases g2 : k = 63
      · subst g2; rw [h63]; simp
      · have : k < 63 := by omega
        have : 52 ≤ k := by omega
        simp [*]
  rw [e1 _ (by rw [fabs_eq_mk fw64, mk_toNat fw64 hl]; simpa using hl)]
  apply BitVec.eq_of_toNat_eq
  rw [BitVec.toNat_shiftLeft, BitVec.toNat_ushiftRight, fabs_eq_mk fw64, mk_toNat fw64 hl, hm, BitVec.toNat_ofNat,
    Nat.shiftRight_eq_div_pow, Nat.shiftLeft_eq]
  norm_num at hf ⊢
  omega

theorem cb_eq {x : BitVec 64} {e f : Nat} (he : e < 52) (hf : f < 2 ^ 52) (hm : mag x = (1023 + e) * 2 ^ 52 + f) :
    cbLane 0x7ff0000000000000#64 x = BitVec.ofNat 64 (2 ^ (52 - e) - 1) ∧ cbLane 0xfff0000000000000#64 x = BitVec.ofNat 64 (2 ^ (52 - e) - 1) := by
  unfold cbLane
  rw [expBits he hf hm]
  exact clear_tab ⟨e, he⟩

theorem clear_low (x : BitVec 64) {k : Nat} (hk : k ≤ 52) : (x &&& ~~~ BitVec.ofNat 64 (2 ^ k - 1)).toNat = x.toNat / 2 ^ k * 2 ^ k := by
  have e : x &&& ~~~ BitVec.ofNat 64 (2 ^ k - 1) = (x >>> k) <<< k := by
    apply BitVec.eq_of_getLsbD_eq
    intro j hj
    rw [BitVec.getLsbD_and, BitVec.getLsbD_not, BitVec.getLsbD_shiftLeft, BitVec.getLsbD_ushiftRight, BitVec.getLsbD_ofNat, Nat.testBit_two_pow_sub_one]
    by_cases g : j < k
    · simp [g, hj]
    · have : k + (j - k) = j := by omega
      simp [g, hj, this]
  rw [e, BitVec.toNat_shiftLeft, BitVec.toNat_ushiftRight, Nat.shiftRight_eq_div_pow, Nat.shiftLeft_eq, Nat.mod_eq_of_lt]
  exact Nat.lt_of_le_of_lt (Nat.div_mul_le_self _ _) x.isLt

theorem and_low (x : BitVec 64) {k : Nat} (hk : k ≤ 52) : (x &&& BitVec.ofNat 64 (2 ^ k - 1)).toNat = x.toNat % 2 ^ k := by
  have h : 2 ^ k ≤ 2 ^ 52 := Nat.pow_le_pow_right (by decide) hk
  rw [BitVec.toNat_and, BitVec.toNat_ofNat, Nat.mod_eq_of_lt (by omega), Nat.and_two_pow_sub_one_eq_mod]

theorem num_one {e f : Nat} (he : e < 52) (hf : f < 2 ^ 52) : numMag 64 ((1023 + e) * 2 ^ 52 + f) = (2 ^ 52 + f) * 2 ^ (1022 + e) := by
  have := numMag_high (w := 64) (q := 1022 + e) (f := f) (by rw [prec64]; exact hf)
  rw [prec64] at this
  rw [show 1023 + e = 1022 + e + 1 by omega]
  exact this

theorem unit_split {e : Nat} (he : e < 52) : 2 ^ unit 64 = 2 ^ (52 - e) * 2 ^ (1022 + e) := by
  rw [← Nat.pow_add]; congr 1
  have : unit 64 = 1074 := rfl
  omega

theorem int_div {e f : Nat} (he : e < 52) (hf : f < 2 ^ 52) : numMag 64 ((1023 + e) * 2 ^ 52 + f) / 2 ^ unit 64 = (2 ^ 52 + f) / 2 ^ (52 - e) := by
  rw [num_one he hf, unit_split he, Nat.mul_div_mul_right _ _ (by positivity)]

theorem below_one {M : Nat} (h : M < 0x3ff0000000000000) : numMag 64 M / 2 ^ unit 64 = 0 := by
  apply Nat.div_eq_of_lt
  have : numMag 64 0x3ff0000000000000 = 2 ^ unit 64 := by
    have := num_one (e := 0) (f := 0) (by decide) (by decide)
    rw [show (0x3ff0000000000000 : Nat) = (1023 + 0) * 2 ^ 52 + 0 by decide, this, unit_split (e := 0) (by decide), Nat.add_zero, Nat.sub_zero]
  rw [← this]; exact numMag_lt h

theorem above_52 {M : Nat} (h : 0x4330000000000000 ≤ M) : 2 ^ unit 64 ∣ numMag 64 M := by
  have e : numMag 64 0x4330000000000000 = 2 ^ 52 * 2 ^ unit 64 := by
    have e : 0x4330000000000000 = (1074 + 1) * 2 ^ (prec 64 - 1) + 0 := by decide
    rw [e, numMag_high (by positivity), prec64, Nat.add_zero]
    have : unit 64 = 1074 := rfl
    rw [this]
  refine big_integral ?_
  rw [prec64, ← e]
  rcases Nat.lt_or_eq_of_le h with g | g
  · exact Nat.le_of_lt (numMag_lt g)
  · rw [g]

/-- Clearing the bits below the binary point truncates. -/
theorem clear_trunc {x : BitVec 64} (h1 : 0x3ff0000000000000 ≤ mag x) (h2 : mag x < 0x4330000000000000) :
    IsInt (x &&& ~~~ cbLane 0x7ff0000000000000#64 x) (truncInt x) := by
  obtain ⟨e, f, he, hf, hm⟩ := mag_split h1 h2
  rw [(cb_eq he hf hm).1]
  have hx := clear_low x (k := 52 - e) (by omega)
  set y := x &&& ~~~ BitVec.ofNat 64 (2 ^ (52 - e) - 1) with hy
  -- the fraction without its low bits
  have hk : 2 ^ (52 - e) * 2 ^ e = 2 ^ 52 := by rw [← Nat.pow_add]; congr 1; omega
  have hp : 0 < 2 ^ (52 - e) := by positivity
  set f' := f / 2 ^ (52 - e) * 2 ^ (52 - e) with hf'
  have hle : f' ≤ f := Nat.div_mul_le_self _ _
  have ha : ∀ N, (2 ^ 52 * N + f) / 2 ^ (52 - e) * 2 ^ (52 - e) = 2 ^ 52 * N + f' := by
    intro N
    rw [← hk, Nat.mul_assoc, Nat.mul_add_div hp, Nat.add_mul, ← hf']
    congr 1
    rw [Nat.mul_comm]
  have hym : y = mk 64 x.msb ((1023 + e) * 2 ^ 52 + f') := by
    apply BitVec.eq_of_toNat_eq
    rw [mk_toNat fw64 (by norm_num at hf ⊢; omega), hx, toNat_split fw64 x, hm]
    cases x.msb
    · have := ha (1023 + e)
      rw [Nat.mul_comm (2 ^ 52)] at this
      simp only [Bool.false_eq_true, if_false, Nat.add_zero]; exact this
    · have := ha (1023 + e + 2048)
      rw [show (1023 + e) * 2 ^ 52 + f + (if true = true then 2 ^ (64 - 1) else 0) = 2 ^ 52 * (1023 + e + 2048) + f by norm_num; omega, this]
      norm_num; omega
  have hM : (1023 + e) * 2 ^ 52 + f' < 2 ^ (64 - 1) := by norm_num at hf ⊢; omega
  have hnum : numMag 64 ((1023 + e) * 2 ^ 52 + f') = numMag 64 (mag x) / 2 ^ unit 64 * 2 ^ unit 64 := by
    rw [num_one he (by omega), hm, int_div he hf, unit_split he, ← Nat.mul_assoc]
    congr 1
    have := ha 1
    rw [Nat.mul_one] at this; exact this.symm
  refine ⟨isFinite_iff.2 ?_, ?_⟩
  · rw [hym, mk_mag fw64 hM]
    have : infBits 64 = 0x7ff0000000000000 := by decide
    rw [this]; norm_num at hf ⊢; omega
  · rw [hym, num_mk fw64 hM, hnum]
    cases hs : x.msb
    · rw [trunc_pos hs, if_neg (by decide)]; push_cast; rfl
    · rw [trunc_neg hs, if_pos rfl]; push_cast; rw [Int.neg_mul]

/-- One lane of the emulated `trunc`. -/
def trunc64lane (x : BitVec 64) : BitVec 64 :=
  if Flt.fle (Hw.fabs x) 0x432ffffffffffffe#64 then
    (x &&& ~~~ cbLane 0x7ff0000000000000#64 x) &&& ~~~ maskLane 64 (Flt.flt (Hw.fabs x) 0x3ff0000000000000#64) else x

theorem range64 (x : BitVec 64) : Flt.fle (Hw.fabs x) 0x432ffffffffffffe#64 = decide (mag x ≤ 0x432ffffffffffffe) :=
  (fabs_cmp fw64 x (K := 0x432ffffffffffffe) (by decide)).1
theorem one64 (x : BitVec 64) : Flt.flt (Hw.fabs x) 0x3ff0000000000000#64 = decide (mag x < 0x3ff0000000000000) :=
  (fabs_cmp fw64 x (K := 0x3ff0000000000000) (by decide)).2

theorem finite_small {x : BitVec 64} (h : mag x < 0x4330000000000000) : isFinite x = true :=
  isFinite_iff.2 (by have : infBits 64 = 0x7ff0000000000000 := by decide
                     omega)

theorem isInt_zero64 : IsInt (0 : BitVec 64) 0 := by
  have := finite_zero fw64 false
  exact ⟨this.1, by have h := this.2; rw [Int.zero_mul]; exact h⟩

theorem trunc_below {x : BitVec 64} (h : mag x < 0x3ff0000000000000) : truncInt x = 0 := by
  have := below_one h
  cases hs : x.msb
  · rw [trunc_pos hs, this]; rfl
  · rw [trunc_neg hs, this]; rfl

theorem trunc64lane_spec (x : BitVec 64) (hx : mag x ≠ 0x432fffffffffffff) : IsRnd truncInt x (trunc64lane x) := by
  unfold trunc64lane
  rw [range64, one64]
  by_cases h : mag x ≤ 0x432ffffffffffffe
  · rw [decide_eq_true h, if_pos rfl]
    refine IsRnd.of_int (finite_small (by omega)) ?_
    by_cases g : mag x < 0x3ff0000000000000
    · rw [decide_eq_true g, trunc_below g]
      have : (x &&& ~~~ cbLane 0x7ff0000000000000#64 x) &&& ~~~ maskLane 64 true = 0 := by
        rw [show maskLane 64 true = BitVec.allOnes 64 from rfl, BitVec.not_allOnes]
        exact BitVec.and_zero
      rw [this]; exact isInt_zero64
    · rw [decide_eq_false g]
      have : (x &&& ~~~ cbLane 0x7ff0000000000000#64 x) &&& ~~~ maskLane 64 false = x &&& ~~~ cbLane 0x7ff0000000000000#64 x := by
        rw [show maskLane 64 false = 0#64 from rfl, BitVec.not_zero, BitVec.and_allOnes]
      rw [this]
      exact clear_trunc (by omega) (by omega)
  · rw [decide_eq_false h, if_neg (by decide)]
    exact IsRnd.self rndFn_trunc fun _ => above_52 (by omega)

/-! ### The emulated `floor` and `ceil` -/

def floor64lane (x : BitVec 64) : BitVec 64 :=
  let neg := Flt.flt x 0
  let small := Flt.flt (Hw.fabs x) 0x3ff0000000000000#64
  if Flt.fle (Hw.fabs x) 0x432ffffffffffffe#64 then
    Fp.sub (if small then 0 else x)
      (if (Flt.fgt (x &&& cbLane 0xfff0000000000000#64 x) 0 && neg) || (small && neg) then 0xbff0000000000000#64 else 0)
  else x

def ceil64lane (x : BitVec 64) : BitVec 64 :=
  let pos := Flt.fgt x 0
  let small := Flt.flt (Hw.fabs x) 0x3ff0000000000000#64
  if Flt.fle (Hw.fabs x) 0x432ffffffffffffe#64 then
    Fp.add (if small then 0 else x)
      (if (Flt.fgt (x &&& cbLane 0xfff0000000000000#64 x) 0 && pos) || (small && pos) then 0x3ff0000000000000#64 else 0)
  else x

section
variable {c : Cfg} (h : c.Ok)
include h

theorem clearbits_eq (m : BitVec 64) (a : Vec 64 n) : clearbits c m (fun i => Hw.fabs (a i)) = some (fun i => cbLane m (a i)) := by
  unfold clearbits
  refine bind_of (i_bit_and_eq h (k := .flt) (Or.inr rfl) (r := .r128) rfl _ _) _ |>.trans ?_
  refine bind_of (i_fadd_eq h (r := .r128) rfl _ _) _ |>.trans ?_
  refine bind_of (i_isub_eq h iw64 (r := .r128) rfl _ _) _ |>.trans ?_
  exact i_bit_andnot_eq h (k := .flt) (Or.inr rfl) (r := .r128) rfl _ _

theorem trunc64emu_eq (a : Vec 64 n) : trunc64emu c a = some (fun i => trunc64lane (a i)) := by
  unfold trunc64emu
  refine bind_of (i_fabs_eq h fw64 (r := .r128) rfl a) _ |>.trans ?_
  refine bind_of (f_cmp_le_eq h fw64 (r := .r128) rfl _ _) _ |>.trans ?_
  refine bind_of (f_cmp_lt_eq h fw64 (r := .r128) rfl _ _) _ |>.trans ?_
  refine bind_of (clearbits_eq h _ a) _ |>.trans ?_
  refine bind_of (i_bit_andnot_eq h (k := .flt) (Or.inr rfl) (r := .r128) rfl _ _) _ |>.trans ?_
  rw [Mask.unmask_of]
  refine bind_of (i_bit_andnot_eq h (k := .flt) (Or.inr rfl) (r := .r128) rfl _ _) _ |>.trans ?_
  exact i_blend_vm_eq h (k := .flt) (Or.inr rfl) (r := .r128) rfl _ _ _

theorem floor64emu_eq (a : Vec 64 n) : floor64emu c a = some (fun i => floor64lane (a i)) := by
  unfold floor64emu
  refine bind_of (i_fabs_eq h fw64 (r := .r128) rfl a) _ |>.trans ?_
  refine bind_of (f_cmp_le_eq h fw64 (r := .r128) rfl _ _) _ |>.trans ?_
  refine bind_of (f_cmp_lt_eq h fw64 (r := .r128) rfl _ _) _ |>.trans ?_
  refine bind_of (clearbits_eq h _ a) _ |>.trans ?_
  refine bind_of (i_bit_andnot_eq h (k := .flt) (Or.inr rfl) (r := .r128) rfl _ _) _ |>.trans ?_
  refine bind_of (f_cmp_lt_eq h fw64 (r := .r128) rfl _ _) _ |>.trans ?_
  refine bind_of (i_bit_and_eq h (k := .flt) (Or.inr rfl) (r := .r128) rfl _ _) _ |>.trans ?_
  refine bind_of (f_cmp_gt_eq h fw64 (r := .r128) rfl _ _) _ |>.trans ?_
  refine bind_of (i_bit_and_mm_eq h (k := .flt) (Or.inr rfl) (r := .r128) rfl _ _) _ |>.trans ?_
  refine bind_of (i_bit_and_mm_eq h (k := .flt) (Or.inr rfl) (r := .r128) rfl _ _) _ |>.trans ?_
  refine bind_of (i_bit_or_mm_eq h (k := .flt) (Or.inr rfl) (r := .r128) rfl _ _) _ |>.trans ?_
  refine bind_of (i_bit_and_vm_eq h (k := .flt) (Or.inr rfl) (r := .r128) rfl _ _) _ |>.trans ?_
  refine bind_of (i_bit_andnot_vm_eq h (k := .flt) (Or.inr rfl) (r := .r128) rfl _ _) _ |>.trans ?_
  refine bind_of (i_fsub_eq h (r := .r128) rfl _ _) _ |>.trans ?_
  exact i_blend_vm_eq h (k := .flt) (Or.inr rfl) (r := .r128) rfl _ _ _

theorem ceil64emu_eq (a : Vec 64 n) : ceil64emu c a = some (fun i => ceil64lane (a i)) := by
  unfold ceil64emu
  refine bind_of (i_fabs_eq h fw64 (r := .r128) rfl a) _ |>.trans ?_
  refine bind_of (f_cmp_le_eq h fw64 (r := .r128) rfl _ _) _ |>.trans ?_
  refine bind_of (f_cmp_lt_eq h fw64 (r := .r128) rfl _ _) _ |>.trans ?_
  refine bind_of (clearbits_eq h _ a) _ |>.trans ?_
  refine bind_of (i_bit_andnot_eq h (k := .flt) (Or.inr rfl) (r := .r128) rfl _ _) _ |>.trans ?_
  refine bind_of (f_cmp_gt_eq h fw64 (r := .r128) rfl _ _) _ |>.trans ?_
  refine bind_of (i_bit_and_eq h (k := .flt) (Or.inr rfl) (r := .r128) rfl _ _) _ |>.trans ?_
  refine bind_of (f_cmp_gt_eq h fw64 (r := .r128) rfl _ _) _ |>.trans ?_
  refine bind_of (i_bit_and_mm_eq h (k := .flt) (Or.inr rfl) (r := .r128) rfl _ _) _ |>.trans ?_
  refine bind_of (i_bit_and_mm_eq h (k := .flt) (Or.inr rfl) (r := .r128) rfl _ _) _ |>.trans ?_
  refine bind_of (i_bit_or_mm_eq h (k := .flt) (Or.inr rfl) (r := .r128) rfl _ _) _ |>.trans ?_
  refine bind_of (i_bit_and_vm_eq h (k := .flt) (Or.inr rfl) (r := .r128) rfl _ _) _ |>.trans ?_
  refine bind_of (i_bit_andnot_vm_eq h (k := .flt) (Or.inr rfl) (r := .r128) rfl _ _) _ |>.trans ?_
  refine bind_of (i_fadd_eq h (r := .r128) rfl _ _) _ |>.trans ?_
  exact i_blend_vm_eq h (k := .flt) (Or.inr rfl) (r := .r128) rfl _ _ _

/-- The cascade: instructions, or the emulation. -/
theorem round64_spec {f g : BitVec 64 → Int} (hf : RndFn f) {emu : Cfg → Vec 64 n → Option (Vec 64 n)} {r : Reg} (hr : c.hasVec .flt 64 r = true)
    (hg : r = .r128 → c.neon64 = true → g = f)
    (a : Vec 64 n) {P : BitVec 64 → Prop}
    (he : ∃ res, emu c a = some res ∧ ∀ i, P (a i) → IsRnd f (a i) (res i)) :
    ∃ res, round64 f g emu c r a = some res ∧ ∀ i, (r = .r128 → c.sse41 = false ∧ (c.sse2 = true ∨ c.msa = true) → P (a i)) → IsRnd f (a i) (res i) := by
  have hw : ∃ res, some (a.map (Hw.rint f)) = some res ∧
      ∀ i, (r = .r128 → c.sse41 = false ∧ (c.sse2 = true ∨ c.msa = true) → P (a i)) → IsRnd f (a i) (res i) :=
    ⟨_, rfl, fun i _ => rint_spec fw64 hf (a i)⟩
  unfold round64
  cases r <;> dsimp only
  · split_ifs with g1 g2 g3 g4 g5
    · exact hw
    · obtain ⟨res, e, p⟩ := he
      exact ⟨res, e, fun i hi => p i (hi rfl ⟨by simpa using g1, g2⟩)⟩
    · rw [hg rfl g3]; exact hw
    · exact hw
    · exact hw
    · exfalso; clear hw he hg; cfg_absurd h
  · rw [if_pos (show c.avx = true from hr)]; exact hw
  · rw [if_pos (show c.avx512f = true from hr)]; exact hw

end

/-! ### C34 -/

/-- C34: `trunc` on `double` lanes is right on every build, but for `±4503599627370495.5` where it is emulated (SSE2 to SSSE3, MSA). -/
theorem C34_trunc_double_partial {c : Cfg} (h : c.Ok) {r : Reg} (hr : c.hasVec .flt 64 r = true) (a : Vec 64 n) :
    ∃ res, i_trunc64 c r a = some res ∧ ∀ i,
      (r = .r128 → c.sse41 = false ∧ (c.sse2 = true ∨ c.msa = true) → Flt.mag (a i) ≠ 0x432fffffffffffff) →
      IsRnd Fp.truncInt (a i) (res i) :=
  round64_spec h rndFn_trunc (emu := trunc64emu) hr (fun _ _ => rfl) a (P := fun x => mag x ≠ 0x432fffffffffffff)
    ⟨_, trunc64emu_eq h a, fun i hi => trunc64lane_spec (a i) hi⟩

/-- The numbers with no fraction. -/
def Spec.Fp.Integral (x : BitVec 64) : Prop := isFinite x = true → (2 ^ unit 64 : Int) ∣ num x

theorem integral_dvd {x : BitVec 64} (hf : isFinite x = true) (h : Fp.Integral x) : 2 ^ unit 64 ∣ numMag 64 (mag x) := by
  have := h hf
  have h2 := Int.natAbs_dvd_natAbs.2 this
  rw [num_natAbs] at h2
  have e : (2 ^ unit 64 : Int).natAbs = 2 ^ unit 64 := by
    rw [Int.natAbs_pow]; rfl
  rwa [e] at h2

theorem low_zero {x : BitVec 64} (hi : Fp.Integral x) (h1 : 0x3ff0000000000000 ≤ mag x) (h2 : mag x < 0x4330000000000000) :
    x &&& cbLane 0xfff0000000000000#64 x = 0 := by
  obtain ⟨e, f, he, hf, hm⟩ := mag_split h1 h2
  have hd := integral_dvd (finite_small h2) hi
  rw [hm, num_one he hf, unit_split he, Nat.mul_dvd_mul_iff_right (by positivity)] at hd
  rw [(cb_eq he hf hm).2]
  apply BitVec.eq_of_toNat_eq
  rw [and_low x (by omega), toNat_split fw64 x, hm]
  have d52 : 2 ^ (52 - e) ∣ 2 ^ 52 := Nat.pow_dvd_pow _ (by omega)
  have df : 2 ^ (52 - e) ∣ f := (Nat.dvd_add_right d52).1 hd
  have d63 : 2 ^ (52 - e) ∣ (if x.msb then 2 ^ (64 - 1) else 0) := by
    split_ifs
    · exact Nat.pow_dvd_pow _ (by omega)
    · exact Nat.dvd_zero _
  exact Nat.mod_eq_zero_of_dvd (Nat.dvd_add (Nat.dvd_add (Nat.dvd_mul_left_of_dvd d52 _) df) d63)

theorem fgt_zero_zero : Flt.fgt (0 : BitVec 64) 0 = false := by decide

theorem integral_pass {f : BitVec 64 → Int} (hf : RndFn f) {x y : BitVec 64} (hi : Fp.Integral x) (hx : isFinite x = true)
    (hy : isFinite y = true ∧ num y = num x) : IsRnd f x y := by
  refine IsRnd.of_int hx ⟨hy.1, ?_⟩
  rw [hy.2]
  exact hf.integral x hx (integral_dvd hx hi)

/-- A finite number below one in magnitude is zero when integral. -/
theorem integral_small {x : BitVec 64} (hi : Fp.Integral x) (h : mag x < 0x3ff0000000000000) : mag x = 0 := by
  have hd := integral_dvd (finite_small (by omega)) hi
  have h0 := below_one h
  by_contra hne
  have := numMag_pos (w := 64).2 (Nat.pos_of_ne_zero hne)
  have := Nat.le_of_dvd this hd
  have := Nat.div_pos this (by positivity)
  omega

theorem flt_zero_of {x : BitVec 64} (hz : mag x = 0) : Flt.flt x 0 = false ∧ Flt.fgt x 0 = false := by
  have hx : x = mk 64 x.msb 0 := by
    have := (mk_self fw64 x).symm; rwa [hz] at this
  rw [hx]
  cases x.msb <;> decide

theorem neg_iff {x : BitVec 64} (fx : isFinite x = true) : (Flt.flt x 0 = decide (num x < 0)) ∧ (Flt.fgt x 0 = decide (0 < num x)) := by
  have hnan := (not_nan_of_finite fx).1
  have hz : isNaN (0 : BitVec 64) = false := by decide
  have z0 : num (0 : BitVec 64) = 0 := by decide
  have o1 : ordered x 0 = true := by unfold ordered; rw [hnan, hz]; rfl
  have o2 : ordered 0 x = true := by unfold ordered; rw [hnan, hz]; rfl
  constructor
  · unfold Flt.flt; rw [o1, Bool.true_and]
    exact decide_eq_decide.2 (by rw [key_lt_iff, z0])
  · unfold Flt.fgt Flt.flt; rw [o2, Bool.true_and]
    exact decide_eq_decide.2 (by rw [key_lt_iff, z0])

theorem floor64lane_spec (x : BitVec 64) (hx : mag x ≠ 0x432fffffffffffff)
    (hP : Fp.Integral x ∨ (mag x < 0x3ff0000000000000 ∧ Flt.flt x 0 = false)) : IsRnd floorInt x (floor64lane x) := by
  unfold floor64lane
  dsimp only
  rw [range64, one64]
  by_cases h : mag x ≤ 0x432ffffffffffffe
  · rw [decide_eq_true h, if_pos rfl]
    have fx := finite_small (x := x) (by omega)
    by_cases g : mag x < 0x3ff0000000000000
    · rw [decide_eq_true g]
      have hneg : Flt.flt x 0 = false := by
        rcases hP with hi | ⟨_, hn⟩
        · exact (flt_zero_of (integral_small hi g)).1
        · exact hn
      rw [hneg]
      simp only [Bool.and_false, Bool.or_self, Bool.false_eq_true, if_false, if_true]
      refine IsRnd.of_int fx ?_
      have e : floorInt x = 0 := by
        rcases Nat.eq_zero_or_pos (mag x) with z | z
        · exact (floor_zero z).1
        · have hs : x.msb = false := by
            by_contra hs
            have hs : x.msb = true := by simpa using hs
            rw [(neg_iff fx).1, decide_eq_false_iff_not, num_neg_eq hs] at hneg
            have := (numMag_pos (w := 64)).2 z
            omega
          rw [floor_pos hs, below_one g]; rfl
      rw [e]
      have : Fp.sub (0 : BitVec 64) 0 = 0 := by decide +kernel
      rw [this]; exact isInt_zero64
    · rw [decide_eq_false g]
      have hi : Fp.Integral x := by
        rcases hP with hi | ⟨hc, _⟩
        · exact hi
        · exact absurd hc g
      rw [low_zero hi (by omega) (by omega), fgt_zero_zero]
      simp only [Bool.false_and, Bool.or_self, Bool.false_eq_true, if_false]
      refine integral_pass rndFn_floor hi fx ?_
      exact add_zero' fw64 fx (by decide) (by decide)
  · rw [decide_eq_false h, if_neg (by decide)]
    exact IsRnd.self rndFn_floor fun _ => above_52 (by omega)

theorem ceil64lane_spec (x : BitVec 64) (hx : mag x ≠ 0x432fffffffffffff)
    (hP : Fp.Integral x ∨ mag x < 0x3ff0000000000000) : IsRnd ceilInt x (ceil64lane x) := by
  unfold ceil64lane
  dsimp only
  rw [range64, one64]
  by_cases h : mag x ≤ 0x432ffffffffffffe
  · rw [decide_eq_true h, if_pos rfl]
    have fx := finite_small (x := x) (by omega)
    by_cases g : mag x < 0x3ff0000000000000
    · rw [decide_eq_true g]
      refine IsRnd.of_int fx ?_
      rw [(neg_iff fx).2]
      rcases Nat.eq_zero_or_pos (mag x) with z | z
      · rw [(floor_zero z).2.1, num_eq_zero.2 z]
        simp only [Int.lt_irrefl, decide_false, Bool.and_false, Bool.or_self, Bool.false_eq_true, if_false, if_true]
        rw [show Fp.add (0 : BitVec 64) 0 = 0 by decide +kernel]; exact isInt_zero64
      · have hpos := (numMag_pos (w := 64)).2 z
        cases hs : x.msb
        · have e : ceilInt x = 1 := by
            rw [ceil_pos hs z]
            have h1 := below_one g
            have h2 := div_pred_le (numMag 64 (mag x)) (2 ^ unit 64)
            have : (numMag 64 (mag x) - 1) / 2 ^ unit 64 = 0 := by rw [h1] at h2; exact Nat.le_zero.1 h2
            rw [this]; rfl
          rw [e, num_pos_eq hs, decide_eq_true (by omega)]
          simp only [Bool.and_true, Bool.or_true, if_true]
          rw [show Fp.add (0 : BitVec 64) 0x3ff0000000000000#64 = 0x3ff0000000000000#64 by decide +kernel]
          exact ⟨by decide, by decide +kernel⟩
        · have e : ceilInt x = 0 := by rw [ceil_neg hs, below_one g]; rfl
          rw [e, num_neg_eq hs, decide_eq_false (by omega)]
          simp only [Bool.and_false, Bool.or_self, Bool.false_eq_true, if_false, if_true]
          rw [show Fp.add (0 : BitVec 64) 0 = 0 by decide +kernel]; exact isInt_zero64
    · rw [decide_eq_false g]
      have hi : Fp.Integral x := by
        rcases hP with hi | hc
        · exact hi
        · exact absurd hc g
      rw [low_zero hi (by omega) (by omega), fgt_zero_zero]
      simp only [Bool.false_and, Bool.or_self, Bool.false_eq_true, if_false]
      refine integral_pass rndFn_ceil hi fx ?_
      exact add_zero' fw64 fx (by decide) (by decide)
  · rw [decide_eq_false h, if_neg (by decide)]
    exact IsRnd.self rndFn_ceil fun _ => above_52 (by omega)

/-- C34: `floor` on `double` lanes is right on every build but NEON64; where it is emulated (SSE2 to SSSE3, MSA) only on numbers that
are integral (NaN and infinities included) or from 0 to 1, `±4503599627370495.5` excepted. -/
theorem C34_floor_double_partial {c : Cfg} (h : c.Ok) {r : Reg} (hr : c.hasVec .flt 64 r = true) (hn : c.neon64 = false) (a : Vec 64 n) :
    ∃ res, i_floor64 c r a = some res ∧ ∀ i,
      (r = .r128 → c.sse41 = false ∧ (c.sse2 = true ∨ c.msa = true) → Flt.mag (a i) ≠ 0x432fffffffffffff ∧
        (Fp.Integral (a i) ∨ (Flt.mag (a i) < 0x3ff0000000000000 ∧ Flt.flt (a i) 0 = false))) →
      IsRnd Fp.floorInt (a i) (res i) :=
  round64_spec h rndFn_floor (emu := floor64emu) hr (fun _ g => by rw [hn] at g; cases g) a
    (P := fun x => mag x ≠ 0x432fffffffffffff ∧ (Fp.Integral x ∨ (mag x < 0x3ff0000000000000 ∧ Flt.flt x 0 = false)))
    ⟨_, floor64emu_eq h a, fun i hi => floor64lane_spec (a i) hi.1 hi.2⟩

/-- C34: `ceil` on `double` lanes is right on every build; where it is emulated (SSE2 to SSSE3, MSA) only on numbers that are integral
(NaN and infinities included) or below 1 in magnitude, `±4503599627370495.5` excepted. -/
theorem C34_ceil_double_partial {c : Cfg} (h : c.Ok) {r : Reg} (hr : c.hasVec .flt 64 r = true) (a : Vec 64 n) :
    ∃ res, i_ceil64 c r a = some res ∧ ∀ i,
      (r = .r128 → c.sse41 = false ∧ (c.sse2 = true ∨ c.msa = true) → Flt.mag (a i) ≠ 0x432fffffffffffff ∧
        (Fp.Integral (a i) ∨ Flt.mag (a i) < 0x3ff0000000000000)) →
      IsRnd Fp.ceilInt (a i) (res i) :=
  round64_spec h rndFn_ceil (emu := ceil64emu) hr (fun _ _ => rfl) a
    (P := fun x => mag x ≠ 0x432fffffffffffff ∧ (Fp.Integral x ∨ mag x < 0x3ff0000000000000))
    ⟨_, ceil64emu_eq h a, fun i hi => ceil64lane_spec (a i) hi.1 hi.2⟩

/-- C34, finding: on SSE2 to SSSE3 and on MSA, `floor(1.5) = 1.5`, `floor(-1.5) = -0.5`, `floor(-0.5) = 1`, `ceil(1.5) = 2.5`,
`ceil(-1.5) = -1.5`, and `trunc(4503599627370495.5)` is its argument, whose integer part is 4503599627370495. -/
theorem C34_double_emulation_wrong {c : Cfg} (h : c.Ok) (he : c.sse41 = false ∧ (c.sse2 = true ∨ c.msa = true)) :
    i_floor64 c .r128 (Vec.splat 0x3ff8000000000000#64 : Vec 64 2) = some (Vec.splat 0x3ff8000000000000#64) ∧
    i_floor64 c .r128 (Vec.splat 0xbff8000000000000#64 : Vec 64 2) = some (Vec.splat 0xbfe0000000000000#64) ∧
    i_floor64 c .r128 (Vec.splat 0xbfe0000000000000#64 : Vec 64 2) = some (Vec.splat 0x3ff0000000000000#64) ∧
    i_ceil64 c .r128 (Vec.splat 0x3ff8000000000000#64 : Vec 64 2) = some (Vec.splat 0x4004000000000000#64) ∧
    i_ceil64 c .r128 (Vec.splat 0xbff8000000000000#64 : Vec 64 2) = some (Vec.splat 0xbff8000000000000#64) ∧
    i_trunc64 c .r128 (Vec.splat 0x432fffffffffffff#64 : Vec 64 2) = some (Vec.splat 0x432fffffffffffff#64) ∧
    Fp.floorInt 0x3ff8000000000000#64 = 1 ∧ Fp.floorInt 0xbff8000000000000#64 = -2 ∧ Fp.floorInt 0xbfe0000000000000#64 = -1 ∧
    Fp.ceilInt 0x3ff8000000000000#64 = 2 ∧ Fp.ceilInt 0xbff8000000000000#64 = -1 ∧ Fp.truncInt 0x432fffffffffffff#64 = 4503599627370495 ∧
    2 * Fp.num 0x432fffffffffffff#64 = 9007199254740991 * 2 ^ 1074 := by
  have key : ∀ f g (emu : Cfg → Vec 64 2 → Option (Vec 64 2)) a, round64 f g emu c .r128 a = emu c a := by
    intro f g emu a
    unfold round64
    dsimp only
    rw [if_neg (by simp [he.1]), if_pos he.2]
  refine ⟨?_, ?_, ?_, ?_, ?_, ?_, by decide +kernel, by decide +kernel, by decide +kernel, by decide +kernel, by decide +kernel, by decide +kernel, by decide +kernel⟩
  · exact (key ..).trans ((floor64emu_eq (n := 2) h _).trans (congrArg some (funext (by decide +kernel))))
  · exact (key ..).trans ((floor64emu_eq (n := 2) h _).trans (congrArg some (funext (by decide +kernel))))
  · exact (key ..).trans ((floor64emu_eq (n := 2) h _).trans (congrArg some (funext (by decide +kernel))))
  · exact (key ..).trans ((ceil64emu_eq (n := 2) h _).trans (congrArg some (funext (by decide +kernel))))
  · exact (key ..).trans ((ceil64emu_eq (n := 2) h _).trans (congrArg some (funext (by decide +kernel))))
  · exact (key ..).trans ((trunc64emu_eq (n := 2) h _).trans (congrArg some (funext (by decide +kernel))))

/-- C34, finding: on NEON64 `floor` on `double` rounds to nearest, so `floor(0.75) = 1`. -/
theorem C34_floor_neon64_wrong {c : Cfg} (h : c.Ok) (hn : c.neon64 = true) :
    i_floor64 c .r128 (Vec.splat 0x3fe8000000000000#64 : Vec 64 2) = some (Vec.splat 0x3ff0000000000000#64) ∧
    Fp.floorInt 0x3fe8000000000000#64 = 0 := by
  have h1 : ¬ c.sse41 = true := by intro g; cfg_absurd h
  have h2 : ¬ (c.sse2 = true ∨ c.msa = true) := by rintro (g | g) <;> cfg_absurd h
  refine ⟨?_, by decide +kernel⟩
  unfold i_floor64 round64
  dsimp only
  rw [if_neg h1, if_neg h2, if_pos hn]
  exact congrArg some (funext (by decide +kernel))

-- the emulated trunc on -2.75 and 0.5; the hypotheses hold there
example : trunc64emu Cfg.sse2Only (fun i => [0xc006000000000000#64, 0x3fe0000000000000#64].getD i.val 0 : Vec 64 2) =
    some (fun i => [0xc000000000000000#64, 0x0#64].getD i.val 0) := by
  rw [trunc64emu_eq (n := 2) Cfg.sse2Only_ok]
  exact congrArg some (funext (by decide +kernel))
example : Cfg.sse2Only.hasVec .flt 64 .r128 = true ∧ Cfg.sse41Only.hasVec .flt 64 .r128 = true ∧ Cfg.sse41Only.neon64 = false ∧
    Flt.mag (0xc006000000000000#64) ≠ 0x432fffffffffffff := by decide
example : Fp.Integral (0xc000000000000000#64) := fun _ => ⟨-2, by decide +kernel⟩

end Simdpp
