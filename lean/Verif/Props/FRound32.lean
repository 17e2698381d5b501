import Verif.Props.FRoundLane

/-!
# C34: `floor`, `ceil`, `trunc` on `float`
-/

namespace Simdpp
open Spec Spec.Flt Spec.Fp Sh

variable {n : Nat}

attribute [local irreducible] Hw.i2f Fp.ofInt Hw.cvtt Hw.fcvtz Fp.num Fp.round Fp.truncInt Fp.floorInt Fp.ceilInt

/-- The sign bit as an integer. -/
theorem shr31 (x : BitVec 32) : bshr false x 31 = if x.msb then 1 else 0 := by
  unfold bshr
  simp only [Bool.false_eq_true, if_false]
  apply BitVec.eq_of_toNat_eq
  rw [BitVec.toNat_ushiftRight, Nat.shiftRight_eq_div_pow]
  have h := toNat_split fw32 x
  have hm := mag_lt fw32 x
  norm_num at h hm
  split_ifs at h ⊢ <;> simp <;> omega

theorem dec_neg {x : BitVec 32} (h : x.msb = true) (h0 : 0 < mag x) : x - 1 = mk 32 true (mag x - 1) := by
  have hm := mag_lt fw32 x
  apply BitVec.eq_of_toNat_eq
  rw [mk_toNat fw32 (by omega), BitVec.toNat_sub, toNat_split fw32 x, h, show (1 : BitVec 32).toNat = 1 from rfl]
  norm_num at hm ⊢
  omega

theorem dec_pos {x : BitVec 32} (h : x.msb = false) (h0 : 0 < mag x) : x - 1 = mk 32 false (mag x - 1) := by
  have hm := mag_lt fw32 x
  apply BitVec.eq_of_toNat_eq
  rw [mk_toNat fw32 (by omega), BitVec.toNat_sub, toNat_split fw32 x, h, show (1 : BitVec 32).toNat = 1 from rfl]
  norm_num at hm ⊢
  omega

/-- `2 ^ 23` in single precision. -/
theorem numMag_23 : numMag 32 0x4b000000 = 2 ^ 23 * 2 ^ unit 32 := by
  have e : 0x4b000000 = (149 + 1) * 2 ^ (prec 32 - 1) + 0 := by decide
  rw [e, numMag_high (by positivity), prec32, Nat.add_zero]; rfl

theorem below_23 {M : Nat} (h : M < 0x4b000000) : numMag 32 M / 2 ^ unit 32 < 2 ^ 23 := by
  rw [Nat.div_lt_iff_lt_mul (by positivity), ← numMag_23]
  exact numMag_lt h

theorem above_23 {M : Nat} (h : 0x4b000000 ≤ M) : 2 ^ unit 32 ∣ numMag 32 M := by
  refine big_integral ?_
  rw [prec32, ← numMag_23]
  rcases Nat.lt_or_eq_of_le h with g | g
  · exact Nat.le_of_lt (numMag_lt g)
  · rw [g]

theorem pred_23 {M : Nat} (h0 : 0 < M) (h : M < 0x4b000000) : numMag 32 (M - 1) / 2 ^ unit 32 = (numMag 32 M - 1) / 2 ^ unit 32 := by
  refine pred_div h0 ?_
  have := numMag_lt (w := 32) h
  rw [numMag_23] at this
  have : 2 ^ 23 * 2 ^ unit 32 ≤ 2 ^ prec 32 * 2 ^ unit 32 := Nat.mul_le_mul_right _ (by decide)
  omega

/-- A conversion to `int32` that truncates where the integer part fits. -/
def Truncates (T : BitVec 32 → BitVec 32) : Prop := ∀ x, Fits true 32 x → T x = Spec.lane 32 (truncInt x)

theorem fits_of {x : BitVec 32} (hm : mag x < 0x4b000000) : Fits true 32 x ∧ (truncInt x).natAbs < 2 ^ 23 := by
  have hf : isFinite x = true := isFinite_iff.2 (by have : infBits 32 = 0x7f800000 := by decide
                                                    omega)
  have hb := below_23 hm
  have hn : (truncInt x).natAbs < 2 ^ 23 := by
    cases h : x.msb
    · rw [trunc_pos h]; generalize numMag 32 (mag x) / 2 ^ unit 32 = q at *; omega
    · rw [trunc_neg h]; generalize numMag 32 (mag x) / 2 ^ unit 32 = q at *; omega
  have e1 : lo true 32 = -2 ^ 31 := by decide
  have e2 : hi true 32 = 2 ^ 31 - 1 := by decide
  exact ⟨⟨hf, by omega, by omega⟩, hn⟩

theorem i2f_int {z : Int} (h : z.natAbs < 2 ^ 24) : IsInt (Hw.i2f true 32 (Spec.lane 32 z) : BitVec 32) z := by
  unfold Hw.i2f
  rw [val_lane_of_range (by decide) (by have e1 : lo true 32 = -2 ^ 31 := by decide
                                        omega) (by have e2 : hi true 32 = 2 ^ 31 - 1 := by decide
                                                   omega)]
  exact ofInt_small fw32 h

theorem lane_add (w : Nat) (a b : Int) : Spec.lane w a + Spec.lane w b = Spec.lane w (a + b) := (BitVec.ofInt_add ..).symm
theorem lane_sub (w : Nat) (a b : Int) : Spec.lane w a - Spec.lane w b = Spec.lane w (a - b) := by
  unfold Spec.lane; rw [Int.sub_eq_add_neg, BitVec.ofInt_add, BitVec.ofInt_neg, BitVec.sub_eq_add_neg]

theorem bv_sub0 (x : BitVec 32) : x - 0 = x := BitVec.sub_zero x
theorem bv_add0 (x : BitVec 32) : x + 0 = x := BitVec.add_zero x

def floor32lane (T : BitVec 32 → BitVec 32) (x : BitVec 32) : BitVec 32 :=
  if decide (mag x ≤ 0x4afffffe) && decide (0 < mag x) then
    Hw.i2f true 32 (T (x - if x.msb then 1 else 0) - if x.msb then 1 else 0) else x

theorem floor32lane_spec {T : BitVec 32 → BitVec 32} (hT : Truncates T) (x : BitVec 32) (hx : mag x ≠ 0x4affffff) :
    IsRnd floorInt x (floor32lane T x) := by
  unfold floor32lane
  by_cases h1 : mag x ≤ 0x4afffffe ∧ 0 < mag x
  · rw [decide_eq_true h1.1, decide_eq_true h1.2, Bool.and_self, if_pos rfl]
    have hm : mag x < 0x4b000000 := by omega
    obtain ⟨hfit, hn⟩ := fits_of hm
    refine IsRnd.of_int hfit.1 ?_
    cases hs : x.msb
    · simp only [Bool.false_eq_true, if_false, bv_sub0]
      rw [hT x hfit, show floorInt x = truncInt x by rw [floor_pos hs, trunc_pos hs]]
      exact i2f_int (by omega)
    · simp only [if_true]
      have hd := dec_neg hs h1.2
      have m1 : mag (x - 1) = mag x - 1 := by rw [hd, mk_mag fw32 (by omega)]
      have s1 : (x - 1).msb = true := by rw [hd, mk_msb fw32 (by omega)]
      obtain ⟨hfit', hn'⟩ := fits_of (x := x - 1) (by omega)
      have e : floorInt x = truncInt (x - 1) - 1 := by
        rw [floor_neg hs h1.2, trunc_neg s1, m1, pred_23 h1.2 hm]
      rw [hT _ hfit', show (1 : BitVec 32) = Spec.lane 32 1 from rfl, lane_sub, ← show (1 : BitVec 32) = Spec.lane 32 1 from rfl, e]
      exact i2f_int (by omega)
  · have : (decide (mag x ≤ 0x4afffffe) && decide (0 < mag x)) = false := by simp only [Bool.and_eq_false_iff, decide_eq_false_iff_not]; omega
    rw [this, if_neg (by decide)]
    refine IsRnd.self rndFn_floor fun _ => ?_
    rcases Nat.eq_zero_or_pos (mag x) with g | g
    · rw [g, numMag_zero]; exact Nat.dvd_zero _
    · exact above_23 (by omega)

def ceil32lane (T : BitVec 32 → BitVec 32) (x : BitVec 32) : BitVec 32 :=
  if decide (mag x ≤ 0x4afffffe) && decide (0 < mag x) then
    Hw.i2f true 32 (T (x - if x.msb then 0 else 1) + if x.msb then 0 else 1) else x

theorem ceil32lane_spec {T : BitVec 32 → BitVec 32} (hT : Truncates T) (x : BitVec 32) (hx : mag x ≠ 0x4affffff) :
    IsRnd ceilInt x (ceil32lane T x) := by
  unfold ceil32lane
  by_cases h1 : mag x ≤ 0x4afffffe ∧ 0 < mag x
  · rw [decide_eq_true h1.1, decide_eq_true h1.2, Bool.and_self, if_pos rfl]
    have hm : mag x < 0x4b000000 := by omega
    obtain ⟨hfit, hn⟩ := fits_of hm
    refine IsRnd.of_int hfit.1 ?_
    cases hs : x.msb
    · simp only [Bool.false_eq_true, if_false]
      have hd := dec_pos hs h1.2
      have hml := mag_lt fw32 x
      have m1 : mag (x - 1) = mag x - 1 := by rw [hd, mk_mag fw32 (by omega)]
      have s1 : (x - 1).msb = false := by rw [hd, mk_msb fw32 (by omega)]
      obtain ⟨hfit', hn'⟩ := fits_of (x := x - 1) (by omega)
      have e : ceilInt x = truncInt (x - 1) + 1 := by
        rw [ceil_pos hs h1.2, trunc_pos s1, m1, pred_23 h1.2 hm]
      rw [hT _ hfit', show (1 : BitVec 32) = Spec.lane 32 1 from rfl, lane_add, ← show (1 : BitVec 32) = Spec.lane 32 1 from rfl, e]
      exact i2f_int (by omega)
    · simp only [if_true, bv_sub0, bv_add0]
      rw [hT x hfit, show ceilInt x = truncInt x by rw [ceil_neg hs, trunc_neg hs]]
      exact i2f_int (by omega)
  · have : (decide (mag x ≤ 0x4afffffe) && decide (0 < mag x)) = false := by simp only [Bool.and_eq_false_iff, decide_eq_false_iff_not]; omega
    rw [this, if_neg (by decide)]
    refine IsRnd.self rndFn_ceil fun _ => ?_
    rcases Nat.eq_zero_or_pos (mag x) with g | g
    · rw [g, numMag_zero]; exact Nat.dvd_zero _
    · exact above_23 (by omega)

def trunc32lane (T : BitVec 32 → BitVec 32) (x : BitVec 32) : BitVec 32 :=
  if decide (mag x < 0x4b000000) && decide (0 < mag x) then Hw.i2f true 32 (T x) else x

theorem trunc32lane_spec {T : BitVec 32 → BitVec 32} (hT : Truncates T) (x : BitVec 32) : IsRnd truncInt x (trunc32lane T x) := by
  unfold trunc32lane
  by_cases h1 : mag x < 0x4b000000 ∧ 0 < mag x
  · rw [decide_eq_true h1.1, decide_eq_true h1.2, Bool.and_self, if_pos rfl]
    obtain ⟨hfit, hn⟩ := fits_of h1.1
    refine IsRnd.of_int hfit.1 ?_
    rw [hT x hfit]
    exact i2f_int (by omega)
  · have : (decide (mag x < 0x4b000000) && decide (0 < mag x)) = false := by simp only [Bool.and_eq_false_iff, decide_eq_false_iff_not]; omega
    rw [this, if_neg (by decide)]
    refine IsRnd.self rndFn_trunc fun _ => ?_
    rcases Nat.eq_zero_or_pos (mag x) with g | g
    · rw [g, numMag_zero]; exact Nat.dvd_zero _
    · exact above_23 (by omega)

/-! ### The registers -/

section
variable {c : Cfg} (h : c.Ok)
include h

/-- The builds that emulate. -/
def Cfg.emuF32 (c : Cfg) : Prop := c.sse41 = false ∧ c.neon64 = false ∧ (c.sse2 = true ∨ c.neonFltSp = true ∨ c.msa = true)

def Cfg.cvtF (c : Cfg) : BitVec 32 → BitVec 32 := if c.sse2 then Hw.cvtt true 32 else Hw.fcvtz true 32

omit h in
theorem cvtF_trunc (c : Cfg) : Truncates c.cvtF := by
  intro x hx
  unfold Cfg.cvtF
  split_ifs
  · exact cvtt_fits hx
  · exact fcvtz_fits hx

theorem f32i32_emu (he : c.emuF32) (a : Vec 32 n) : f32i32 c true .r128 a = some (fun i => c.cvtF (a i)) := by
  obtain ⟨e1, e2, e3⟩ := he
  unfold f32i32 Cfg.cvtF
  dsimp only
  split_ifs <;> first | rfl | cfg_absurd h

theorem i32f32_emu (he : c.emuF32) (a : Vec 32 n) : i32f32 c true .r128 a = some (fun i => Hw.i2f true 32 (a i)) := by
  obtain ⟨e1, e2, e3⟩ := he
  unfold i32f32
  dsimp only
  split_ifs <;> first | rfl | cfg_absurd h

theorem f_cmp_le_eq {w : Nat} (hw : w = 32 ∨ w = 64) {r : Reg} (hr : c.hasVec .flt w r = true) (a b : Vec w n) :
    f_cmp_le c r a b = some (Mask.of c .flt r (fun i => Flt.fle (a i) (b i))) := by
  refine f_cmp_eq' h hw hr ?_ ?_ ?_ <;> rfl

theorem f_cmp_gt_eq {w : Nat} (hw : w = 32 ∨ w = 64) {r : Reg} (hr : c.hasVec .flt w r = true) (a b : Vec w n) :
    f_cmp_gt c r a b = some (Mask.of c .flt r (fun i => Flt.fgt (a i) (b i))) := by
  refine f_cmp_eq' h hw hr ?_ ?_ ?_ <;> rfl

omit h in
theorem mask32 (x : BitVec 32) : (Flt.fle (Hw.fabs x) 0x4afffffe#32 && Flt.fgt (Hw.fabs x) 0) = (decide (mag x ≤ 0x4afffffe) && decide (0 < mag x)) := by
  rw [show (0x4afffffe#32) = mk 32 false 0x4afffffe from rfl, (fabs_cmp fw32 x (by decide)).1]
  by_cases g : mag x ≤ 0x4afffffe
  · rw [fabs_gt_zero fw32 x (by unfold isNaN; exact decide_eq_false (by have : infBits 32 = 0x7f800000 := by decide
                                                                        omega))]
  · rw [decide_eq_false g, Bool.false_and, Bool.false_and]

omit h in
theorem mask32t (x : BitVec 32) : (Flt.flt (Hw.fabs x) 0x4b000000#32 && Flt.fgt (Hw.fabs x) 0) = (decide (mag x < 0x4b000000) && decide (0 < mag x)) := by
  rw [show (0x4b000000#32) = mk 32 false 0x4b000000 from rfl, (fabs_cmp fw32 x (by decide)).2]
  by_cases g : mag x < 0x4b000000
  · rw [fabs_gt_zero fw32 x (by unfold isNaN; exact decide_eq_false (by have : infBits 32 = 0x7f800000 := by decide
                                                                        omega))]
  · rw [decide_eq_false g, Bool.false_and, Bool.false_and]

theorem floor32emu_eq (he : c.emuF32) (hn : n % 2 = 0) (a : Vec 32 n) : floor32emu c a = some (fun i => floor32lane c.cvtF (a i)) := by
  unfold floor32emu
  refine bind_of (i_fabs_eq h fw32 (r := .r128) rfl a) _ |>.trans ?_
  refine bind_of (f_cmp_le_eq h fw32 (r := .r128) rfl _ _) _ |>.trans ?_
  refine bind_of (f_cmp_gt_eq h fw32 (r := .r128) rfl _ _) _ |>.trans ?_
  refine bind_of (i_bit_and_mm_eq h (k := .flt) (Or.inl rfl) (r := .r128) rfl _ _) _ |>.trans ?_
  refine bind_of (i_shift_r_eq h false iw32 (r := .r128) rfl hn a (by decide)) _ |>.trans ?_
  refine bind_of (i_isub_eq h iw32 (r := .r128) rfl _ _) _ |>.trans ?_
  refine bind_of (f32i32_emu h he _) _ |>.trans ?_
  refine bind_of (i_isub_eq h iw32 (r := .r128) rfl _ _) _ |>.trans ?_
  refine bind_of (i32f32_emu h he _) _ |>.trans ?_
  refine (i_blend_vm_eq h (k := .flt) (Or.inl rfl) (r := .r128) rfl _ _ _).trans ?_
  congr 1
  funext i
  unfold floor32lane
  rw [← mask32, ← shr31]
  rfl

theorem ceil32emu_eq (he : c.emuF32) (hn : n % 2 = 0) (a : Vec 32 n) : ceil32emu c a = some (fun i => ceil32lane c.cvtF (a i)) := by
  unfold ceil32emu
  refine bind_of (i_fabs_eq h fw32 (r := .r128) rfl a) _ |>.trans ?_
  refine bind_of (f_cmp_le_eq h fw32 (r := .r128) rfl _ _) _ |>.trans ?_
  refine bind_of (f_cmp_gt_eq h fw32 (r := .r128) rfl _ _) _ |>.trans ?_
  refine bind_of (i_bit_and_mm_eq h (k := .flt) (Or.inl rfl) (r := .r128) rfl _ _) _ |>.trans ?_
  refine bind_of (i_shift_r_eq h false iw32 (r := .r128) rfl hn a (by decide)) _ |>.trans ?_
  refine bind_of (i_bit_xor_eq h (k := .int) iw32 (r := .r128) rfl _ _) _ |>.trans ?_
  refine bind_of (i_isub_eq h iw32 (r := .r128) rfl _ _) _ |>.trans ?_
  refine bind_of (f32i32_emu h he _) _ |>.trans ?_
  refine bind_of (i_iadd_eq h iw32 (r := .r128) rfl _ _) _ |>.trans ?_
  refine bind_of (i32f32_emu h he _) _ |>.trans ?_
  refine (i_blend_vm_eq h (k := .flt) (Or.inl rfl) (r := .r128) rfl _ _ _).trans ?_
  congr 1
  funext i
  unfold ceil32lane
  have e : (if (a i).msb then 0 else 1) = bshr false (a i) 31 ^^^ 1#32 := by
    rw [shr31]; split_ifs <;> rfl
  rw [← mask32, e]
  rfl

theorem trunc32emu_eq (he : c.emuF32) (a : Vec 32 n) : trunc32emu c a = some (fun i => trunc32lane c.cvtF (a i)) := by
  unfold trunc32emu
  refine bind_of (i_fabs_eq h fw32 (r := .r128) rfl a) _ |>.trans ?_
  refine bind_of (f_cmp_lt_eq h fw32 (r := .r128) rfl _ _) _ |>.trans ?_
  refine bind_of (f_cmp_gt_eq h fw32 (r := .r128) rfl _ _) _ |>.trans ?_
  refine bind_of (i_bit_and_mm_eq h (k := .flt) (Or.inl rfl) (r := .r128) rfl _ _) _ |>.trans ?_
  refine bind_of (f32i32_emu h he _) _ |>.trans ?_
  refine bind_of (i32f32_emu h he _) _ |>.trans ?_
  refine (i_blend_vm_eq h (k := .flt) (Or.inl rfl) (r := .r128) rfl _ _ _).trans ?_
  congr 1
  funext i
  unfold trunc32lane
  rw [← mask32t]
  rfl

/-- The cascade: instructions, or the emulation. -/
theorem round32_spec {f : BitVec 32 → Int} (hf : RndFn f) {emu : Cfg → Vec 32 n → Option (Vec 32 n)} {r : Reg} (hr : c.hasVec .flt 32 r = true)
    (a : Vec 32 n) {P : BitVec 32 → Prop} (he : r = .r128 → c.emuF32 → ∃ res, emu c a = some res ∧ ∀ i, P (a i) → IsRnd f (a i) (res i)) :
    ∃ res, round32 f emu c r a = some res ∧ ∀ i, (r = .r128 → c.emuF32 → P (a i)) → IsRnd f (a i) (res i) := by
  have hw : ∃ res, some (a.map (Hw.rint f)) = some res ∧ ∀ i, (r = .r128 → c.emuF32 → P (a i)) → IsRnd f (a i) (res i) :=
    ⟨_, rfl, fun i _ => rint_spec fw32 hf (a i)⟩
  unfold round32
  cases r <;> dsimp only
  · split_ifs with g1 g2 g3 g4 g5
    · exact hw
    · exact hw
    · exact hw
    · have hem : c.emuF32 := ⟨by simpa using g2, by simpa using g3, g4⟩
      obtain ⟨res, e, p⟩ := he rfl hem
      exact ⟨res, e, fun i hi => p i (hi rfl hem)⟩
    · exact hw
    · exfalso; clear hw he; cfg_absurd h
  · rw [if_pos (show c.avx = true from hr)]; exact hw
  · rw [if_pos (show c.avx512f = true from hr)]; exact hw

end

/-! ### C34 -/

/-- C34: `trunc` on `float` lanes is right on every build. -/
theorem C34_trunc_float {c : Cfg} (h : c.Ok) {r : Reg} (hr : c.hasVec .flt 32 r = true) (a : Vec 32 n) :
    ∃ res, i_trunc32 c r a = some res ∧ ∀ i, IsRnd Fp.truncInt (a i) (res i) := by
  obtain ⟨res, e, p⟩ := round32_spec h rndFn_trunc (emu := trunc32emu) hr a (P := fun _ => True)
    (fun _ he => ⟨_, trunc32emu_eq h he a, fun i _ => trunc32lane_spec (cvtF_trunc c) (a i)⟩)
  exact ⟨res, e, fun i => p i fun _ _ => trivial⟩

/-- C34: `floor` on `float` lanes is right on every build, but for `±8388607.5` where it is emulated (SSE2 to SSSE3, 32-bit NEON, MSA). -/
theorem C34_floor_float_partial {c : Cfg} (h : c.Ok) {r : Reg} (hr : c.hasVec .flt 32 r = true) (hn : n % 2 = 0) (a : Vec 32 n) :
    ∃ res, i_floor32 c r a = some res ∧ ∀ i,
      (c.sse41 = false ∧ c.neon64 = false ∧ (c.sse2 = true ∨ c.neonFltSp = true ∨ c.msa = true) → Flt.mag (a i) ≠ 0x4affffff) →
      IsRnd Fp.floorInt (a i) (res i) := by
  obtain ⟨res, e, p⟩ := round32_spec h rndFn_floor (emu := floor32emu) hr a (P := fun x => mag x ≠ 0x4affffff)
    (fun _ he => ⟨_, floor32emu_eq h he hn a, fun i hi => floor32lane_spec (cvtF_trunc c) (a i) hi⟩)
  exact ⟨res, e, fun i hi => p i fun _ => hi⟩

/-- C34: `ceil` likewise. -/
theorem C34_ceil_float_partial {c : Cfg} (h : c.Ok) {r : Reg} (hr : c.hasVec .flt 32 r = true) (hn : n % 2 = 0) (a : Vec 32 n) :
    ∃ res, i_ceil32 c r a = some res ∧ ∀ i,
      (c.sse41 = false ∧ c.neon64 = false ∧ (c.sse2 = true ∨ c.neonFltSp = true ∨ c.msa = true) → Flt.mag (a i) ≠ 0x4affffff) →
      IsRnd Fp.ceilInt (a i) (res i) := by
  obtain ⟨res, e, p⟩ := round32_spec h rndFn_ceil (emu := ceil32emu) hr a (P := fun x => mag x ≠ 0x4affffff)
    (fun _ he => ⟨_, ceil32emu_eq h he hn a, fun i hi => ceil32lane_spec (cvtF_trunc c) (a i) hi⟩)
  exact ⟨res, e, fun i hi => p i fun _ => hi⟩

/-- C34, finding: the emulations return `±8388607.5` unchanged. -/
theorem C34_floor_float_wrong {c : Cfg} (h : c.Ok) (he : c.sse41 = false ∧ c.neon64 = false ∧ (c.sse2 = true ∨ c.neonFltSp = true ∨ c.msa = true))
    (hnn : c.neonNoFltSp = false) :
    i_floor32 c .r128 (Vec.splat 0x4affffff#32 : Vec 32 4) = some (Vec.splat 0x4affffff#32) ∧
    i_ceil32 c .r128 (Vec.splat 0x4affffff#32 : Vec 32 4) = some (Vec.splat 0x4affffff#32) ∧
    Fp.floorInt 0x4affffff#32 = 8388607 ∧ Fp.ceilInt 0x4affffff#32 = 8388608 ∧ 2 * Fp.num 0x4affffff#32 = 16777215 * 2 ^ 149 := by
  have hnull : ¬ (c.null = true ∨ c.neonNoFltSp = true) := by
    rintro (g | g)
    · obtain ⟨e1, e2, e3⟩ := he; cfg_absurd h
    · rw [hnn] at g; cases g
  refine ⟨?_, ?_, by decide +kernel, by decide +kernel, by decide +kernel⟩
  · unfold i_floor32 round32
    dsimp only
    rw [if_neg hnull, if_neg (by simp [he.1]), if_neg (by simp [he.2.1]), if_pos he.2.2]
    exact (floor32emu_eq (n := 4) h he rfl _).trans rfl
  · unfold i_ceil32 round32
    dsimp only
    rw [if_neg hnull, if_neg (by simp [he.1]), if_neg (by simp [he.2.1]), if_pos he.2.2]
    exact (ceil32emu_eq (n := 4) h he rfl _).trans rfl

-- the emulated functions on a sample: -1.5, -0.25, 2.75, 8388607
example : floor32emu Cfg.sse2Only (fun i => [0xbfc00000#32, 0xbe800000#32, 0x40300000#32, 0x4afffffe#32].getD i.val 0 : Vec 32 4) =
    some (fun i => [0xc0000000#32, 0xbf800000#32, 0x40000000#32, 0x4afffffe#32].getD i.val 0) := by
  rw [floor32emu_eq (n := 4) Cfg.sse2Only_ok ⟨rfl, rfl, .inl rfl⟩ rfl]
  exact congrArg some (funext (by decide +kernel))
example : Cfg.sse2Only.hasVec .flt 32 .r128 = true ∧ Flt.mag (0xbfc00000#32) ≠ 0x4affffff := by decide

end Simdpp
