import Verif.Model.FMul
import Verif.Props.FltOps
import Verif.Props.FConvSpec

/-!
# C50: floating-point arithmetic
-/

namespace Simdpp
open Spec Spec.Flt Spec.Fp

variable {w n : Nat}

namespace Spec.Fp

theorem fma_zero (hw : FW w) (x y : BitVec w) : SameUpToZero (fma x y 0) (mul x y) := by
  have hz : mag (0 : BitVec w) = 0 := by unfold mag; exact Nat.zero_mod _
  have nz : isNaN (0 : BitVec w) = false := by unfold isNaN; rw [hz]; simp
  have iz : isInf (0 : BitVec w) = false := by
    unfold isInf; rw [hz]; rcases hw with e | e <;> subst e <;> decide
  have n0 : num (0 : BitVec w) = 0 := num_eq_zero.2 hz
  unfold fma mul
  rw [nz, iz, n0, Int.zero_mul, Int.add_zero, Bool.or_false]
  by_cases h1 : (isNaN x || isNaN y) = true
  · rw [if_pos h1, if_pos h1]; exact .inl rfl
  rw [if_neg h1, if_neg h1]
  by_cases h2 : (isInf x || isInf y) = true
  · rw [if_pos h2, if_pos h2]
    simp only [Bool.false_and, Bool.false_eq_true, if_false]
    exact .inl rfl
  rw [if_neg h2, if_neg h2, if_neg (by decide)]
  by_cases h3 : num x * num y = 0
  · rw [if_pos h3, if_pos h3, if_pos h3]
    right
    have : 0 < 2 ^ (w - 1) := by positivity
    rw [mk_mag hw this, mk_mag hw this]; exact ⟨rfl, rfl⟩
  · rw [if_neg h3, if_neg h3]; exact .inl rfl

end Spec.Fp

section
variable {c : Cfg} (h : c.Ok) {r : Reg} (hr : c.hasVec .flt w r = true)
include h hr

/-- The builds whose `float` product is a fused multiply-add with `+0`. -/
def Cfg.mulByFma (c : Cfg) (w : Nat) (r : Reg) : Prop := w = 32 ∧ r = .r128 ∧ c.altivec = true ∧ c.vsx206 = false

theorem i_fmul_eq (hp : ¬ c.mulByFma w r) (a b : Vec w n) : i_fmul c r a b = some (fun i => Fp.mul (a i) (b i)) := by
  unfold i_fmul
  unfold Cfg.mulByFma at hp
  cases r <;> dsimp only <;> split_ifs <;> first | rfl | (exfalso; simp_all; done) | cfg_absurd h

theorem i_fmul_ex (hw : w = 32 ∨ w = 64) (a b : Vec w n) : ∃ res, i_fmul c r a b = some res ∧ ∀ i, SameUpToZero (res i) (Fp.mul (a i) (b i)) := by
  by_cases hp : c.mulByFma w r
  · refine ⟨fun i => Fp.fma (a i) (b i) 0, ?_, fun i => fma_zero hw _ _⟩
    obtain ⟨e, e2, e3, e4⟩ := hp
    subst e e2
    unfold i_fmul
    dsimp only
    rw [if_pos rfl]
    split_ifs <;> first | rfl | cfg_absurd h
  · exact ⟨_, i_fmul_eq h hr hp a b, fun i => .inl rfl⟩

end

/-! ### C50 -/

/-- C50: `add` delivers the IEEE sum in every lane on every build. -/
theorem C50_add {c : Cfg} (h : c.Ok) {r : Reg} (hr : c.hasVec .flt w r = true) (a b : Vec w n) :
    ∃ res, i_fadd c r a b = some res ∧ ∀ i, res i = Fp.add (a i) (b i) := ⟨_, i_fadd_eq h hr a b, fun _ => rfl⟩

/-- C50: `sub`. -/
theorem C50_sub {c : Cfg} (h : c.Ok) {r : Reg} (hr : c.hasVec .flt w r = true) (a b : Vec w n) :
    ∃ res, i_fsub c r a b = some res ∧ ∀ i, res i = Fp.add (a i) (Fp.neg (b i)) := ⟨_, i_fsub_eq h hr a b, fun _ => rfl⟩

/-- C50: `mul` delivers the IEEE product, up to the sign of a zero product on AltiVec before VSX. -/
theorem C50_mul {c : Cfg} (h : c.Ok) (hw : w = 32 ∨ w = 64) {r : Reg} (hr : c.hasVec .flt w r = true) (a b : Vec w n) :
    ∃ res, i_fmul c r a b = some res ∧ ∀ i, SameUpToZero (res i) (Fp.mul (a i) (b i)) ∧
      (¬ (w = 32 ∧ r = .r128 ∧ c.altivec = true ∧ c.vsx206 = false) → res i = Fp.mul (a i) (b i)) := by
  obtain ⟨res, e, p⟩ := i_fmul_ex h hr hw a b
  refine ⟨res, e, fun i => ⟨p i, fun hp => ?_⟩⟩
  have e2 := i_fmul_eq h hr hp a b
  rw [e] at e2
  exact congrFun (Option.some.inj e2) i

/-- C50, finding: on AltiVec `(-1) * 0` is `+0`. -/
theorem C50_mul_altivec_sign {c : Cfg} (h : c.Ok) (h1 : c.altivec = true) (h2 : c.vsx206 = false) :
    i_fmul c .r128 (Vec.splat 0xbf800000#32 : Vec 32 4) (Vec.splat 0#32) = some (Vec.splat 0#32) ∧
    Fp.mul 0xbf800000#32 0#32 = 0x80000000#32 := by
  refine ⟨?_, by decide +kernel⟩
  unfold i_fmul
  dsimp only
  rw [if_pos rfl]
  split_ifs <;> first | exact congrArg some (funext (by decide +kernel)) | (exfalso; cfg_absurd h)

/-- C50: the specified sum is the nearest number to the exact sum, ties to even. -/
theorem C50_add_nearest (hw : w = 32 ∨ w = 64) {x y : BitVec w} (fx : Fp.isFinite x = true) (fy : Fp.isFinite y = true)
    (hf : Fp.isFinite (Fp.add x y) = true) (z : BitVec w) (hz : Fp.isFinite z = true) :
    |Fp.num (Fp.add x y) - (Fp.num x + Fp.num y)| ≤ |Fp.num z - (Fp.num x + Fp.num y)| := by
  obtain ⟨nx, ix⟩ := not_nan_of_finite fx
  obtain ⟨ny, iy⟩ := not_nan_of_finite fy
  have hw' : FW w := hw
  unfold Fp.add at hf ⊢
  simp only [nx, ny, ix, iy, Bool.or_self, Bool.false_eq_true, if_false] at hf ⊢
  by_cases h0 : num x + num y = 0
  · rw [if_pos h0, h0, num_mk hw' (by positivity), numMag_zero]
    simp
  · rw [if_neg h0] at hf ⊢
    have := (C46_round_nearest hw 0 (num x + num y) hf z hz).1
    simpa using this

/-- C50: the specified product is the nearest number to the exact product. -/
theorem C50_mul_nearest (hw : w = 32 ∨ w = 64) {x y : BitVec w} (fx : Fp.isFinite x = true) (fy : Fp.isFinite y = true)
    (hf : Fp.isFinite (Fp.mul x y) = true) (z : BitVec w) (hz : Fp.isFinite z = true) :
    |Fp.num (Fp.mul x y) * 2 ^ unit w - Fp.num x * Fp.num y| ≤ |Fp.num z * 2 ^ unit w - Fp.num x * Fp.num y| := by
  obtain ⟨nx, ix⟩ := not_nan_of_finite fx
  obtain ⟨ny, iy⟩ := not_nan_of_finite fy
  have hw' : FW w := hw
  unfold Fp.mul at hf ⊢
  simp only [nx, ny, ix, iy, Bool.or_self, Bool.false_eq_true, if_false] at hf ⊢
  by_cases h0 : num x * num y = 0
  · rw [if_pos h0, h0, num_mk hw' (by positivity), numMag_zero]
    simp
  · rw [if_neg h0] at hf ⊢
    exact (C46_round_nearest hw (unit w) (num x * num y) hf z hz).1

/-- C50: the specified fused result is the nearest number to the exact `x * y + z`: one rounding. -/
theorem C50_fma_nearest (hw : w = 32 ∨ w = 64) {x y z : BitVec w} (fx : Fp.isFinite x = true) (fy : Fp.isFinite y = true)
    (fz : Fp.isFinite z = true) (hf : Fp.isFinite (Fp.fma x y z) = true) (u : BitVec w) (hu : Fp.isFinite u = true) :
    |Fp.num (Fp.fma x y z) * 2 ^ unit w - (Fp.num x * Fp.num y + Fp.num z * 2 ^ unit w)| ≤
    |Fp.num u * 2 ^ unit w - (Fp.num x * Fp.num y + Fp.num z * 2 ^ unit w)| := by
  obtain ⟨nx, ix⟩ := not_nan_of_finite fx
  obtain ⟨ny, iy⟩ := not_nan_of_finite fy
  obtain ⟨nz, iz⟩ := not_nan_of_finite fz
  have hw' : FW w := hw
  unfold Fp.fma at hf ⊢
  simp only [nx, ny, nz, ix, iy, iz, Bool.or_self, Bool.false_eq_true, if_false] at hf ⊢
  by_cases h0 : num x * num y + num z * 2 ^ unit w = 0
  · rw [if_pos h0, h0, num_mk hw' (by positivity), numMag_zero]
    simp
  · rw [if_neg h0] at hf ⊢
    exact (C46_round_nearest hw (unit w) _ hf u hu).1

/-- Builds on which a register type has `fmadd`/`fmsub`. -/
def Cfg.hasFma (c : Cfg) (r : Reg) : Prop :=
  match r with
  | .r128 => c.null = true ∨ c.fma3 = true ∨ c.fma4 = true ∨ c.neon64 = true ∨ c.msa = true
  | .r256 => c.fma3 = true ∨ c.fma4 = true
  | .r512 => True

/-- C50: `fmadd(a, b, c)` is `a * b + c` with one rounding on every build that has it, except NEON64. -/
theorem C50_fmadd_partial {c : Cfg} (h : c.Ok) {r : Reg} (hr : c.hasVec .flt w r = true) (hf : c.hasFma r) (hn : c.neon64 = false) (x y z : Vec w n) :
    ∃ res, i_fmadd c r x y z = some res ∧ ∀ i, res i = Fp.fma (x i) (y i) (z i) := by
  refine ⟨fun i => Fp.fma (x i) (y i) (z i), ?_, fun _ => rfl⟩
  unfold i_fmadd
  unfold Cfg.hasFma at hf
  cases r <;> dsimp only at hf ⊢
  · rw [hn]
    split_ifs <;> first | rfl | (exfalso; simp_all; done)
  · rw [if_pos (show c.avx = true from hr)]
    split_ifs <;> first | rfl | (exfalso; simp_all; done)
  · rw [if_pos (show c.avx512f = true from hr)]; rfl

/-- C50: `fmsub(a, b, c)` is `a * b - c` with one rounding on every build that has it, except NEON64 and MSA. -/
theorem C50_fmsub_partial {c : Cfg} (h : c.Ok) {r : Reg} (hr : c.hasVec .flt w r = true) (hf : c.hasFma r) (hn : c.neon64 = false) (hm : c.msa = false)
    (x y z : Vec w n) :
    ∃ res, i_fmsub c r x y z = some res ∧ ∀ i, res i = Fp.fma (x i) (y i) (Fp.neg (z i)) := by
  refine ⟨fun i => Fp.fma (x i) (y i) (Fp.neg (z i)), ?_, fun _ => rfl⟩
  unfold i_fmsub
  unfold Cfg.hasFma at hf
  cases r <;> dsimp only at hf ⊢
  · rw [hn, hm]
    split_ifs <;> first | rfl | (exfalso; simp_all; done)
  · rw [if_pos (show c.avx = true from hr)]
    split_ifs <;> first | rfl | (exfalso; simp_all; done)
  · rw [if_pos (show c.avx512f = true from hr)]; rfl

/-- C50, finding: on NEON64 the operands are passed in the wrong places: `fmadd(a, b, c)` is `a + b * c` and `fmsub(a, b, c)` is
`a - b * c`; `fmadd(2, 3, 4) = 14` and `fmsub(2, 3, 4) = -10`, not 10 and 2. -/
theorem C50_fma_neon64_wrong {c : Cfg} (h : c.Ok) (hn : c.neon64 = true) (x y z : Vec w n) :
    i_fmadd c .r128 x y z = some (fun i => Fp.fma (y i) (z i) (x i)) ∧
    i_fmsub c .r128 x y z = some (fun i => Fp.fma (Fp.neg (y i)) (z i) (x i)) ∧
    Fp.fma 0x40400000#32 0x40800000#32 0x40000000#32 = 0x41600000#32 ∧ Fp.fma 0x40000000#32 0x40400000#32 0x40800000#32 = 0x41200000#32 ∧
    Fp.fma (Fp.neg 0x40400000#32) 0x40800000#32 0x40000000#32 = 0xc1200000#32 ∧
    Fp.fma 0x40000000#32 0x40400000#32 (Fp.neg 0x40800000#32) = 0x40000000#32 := by
  have h1 : ¬ c.null = true := by intro g; cfg_absurd h
  have h2 : ¬ c.fma3 = true := by intro g; cfg_absurd h
  have h3 : ¬ c.fma4 = true := by intro g; cfg_absurd h
  refine ⟨?_, ?_, by decide +kernel, by decide +kernel, by decide +kernel, by decide +kernel⟩
  · unfold i_fmadd; dsimp only; rw [if_neg h1, if_neg h2, if_neg h3, if_pos hn]; rfl
  · unfold i_fmsub; dsimp only; rw [if_neg h1, if_neg h2, if_neg h3, if_pos hn]; rfl

/-- C50, finding: on MSA `fmsub(a, b, c)` is `c - a * b`; `fmsub(2, 3, 4) = -2`, not 2. -/
theorem C50_fmsub_msa_wrong {c : Cfg} (h : c.Ok) (hm : c.msa = true) (x y z : Vec w n) :
    i_fmsub c .r128 x y z = some (fun i => Fp.fma (Fp.neg (x i)) (y i) (z i)) ∧
    Fp.fma (Fp.neg 0x40000000#32) 0x40400000#32 0x40800000#32 = 0xc0000000#32 ∧
    Fp.fma 0x40000000#32 0x40400000#32 (Fp.neg 0x40800000#32) = 0x40000000#32 := by
  have h1 : ¬ c.null = true := by intro g; cfg_absurd h
  have h2 : ¬ c.fma3 = true := by intro g; cfg_absurd h
  have h3 : ¬ c.fma4 = true := by intro g; cfg_absurd h
  have h4 : ¬ c.neon64 = true := by intro g; cfg_absurd h
  refine ⟨?_, by decide +kernel, by decide +kernel⟩
  unfold i_fmsub; dsimp only; rw [if_neg h1, if_neg h2, if_neg h3, if_neg h4, if_pos hm]; rfl

/-- C50: without FMA there is no fallback: the build is rejected. An AVX-512 build without FMA3 has the 512-bit function only. -/
theorem C50_fma_missing {c : Cfg} (h1 : c.null = false) (h2 : c.fma3 = false) (h3 : c.fma4 = false) (h4 : c.neon64 = false) (h5 : c.msa = false)
    (x y z : Vec w n) : i_fmadd c .r128 x y z = none ∧ i_fmsub c .r128 x y z = none ∧ i_fmadd c .r256 x y z = none ∧ i_fmsub c .r256 x y z = none := by
  unfold i_fmadd i_fmsub
  simp [h1, h2, h3, h4, h5]

-- 0.1f * 0.1f, and the fused 0.1f * 0.1f - 0.01f
example : Fp.mul 0x3dcccccd#32 0x3dcccccd#32 = 0x3c23d70b#32 := by decide +kernel
example : Cfg.portable.hasFma .r128 ∧ Cfg.portable.neon64 = false ∧ Cfg.portable.msa = false ∧ Cfg.portable.hasVec .flt 32 .r128 = true :=
  ⟨.inl rfl, rfl, rfl, rfl⟩
example : Fp.isFinite (Fp.mul 0x3dcccccd#32 0x3dcccccd#32) = true := by decide +kernel

end Simdpp
