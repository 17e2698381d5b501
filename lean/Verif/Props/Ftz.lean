import Verif.Model.Ftz
import Verif.Props.FProg
import Verif.Props.FRound32
import Verif.Props.FpRelW

/-!
# C68: 32-bit NEON, where `float32` arithmetic flushes to zero
-/

namespace Simdpp
open Spec Spec.FProg Spec.Fp Spec.Flt

variable {w n K L : Nat}

attribute [local irreducible] Fp.mul Fp.fma Fp.sub Fp.add Fp.round Fp.div Fp.sqrt

/-! ## Flushing -/

namespace Spec.Ftz

theorem flush_of {x : BitVec w} (h : ¬ Subnormal x) : flush x = x := if_neg h

theorem flush_tiny {x : BitVec w} (h : Subnormal x) : flush x = mk w x.msb 0 := if_pos h

theorem flush_msb (hw : FW w) (x : BitVec w) : (flush x).msb = x.msb := by
  unfold flush; split_ifs
  · exact mk_msb hw (by positivity)
  · rfl

theorem flush_mag (hw : FW w) (x : BitVec w) : mag (flush x) = if mag x < 2 ^ (prec w - 1) then 0 else mag x := by
  by_cases h : mag x < 2 ^ (prec w - 1)
  · rw [if_pos h]
    by_cases h0 : 0 < mag x
    · rw [flush_tiny ⟨h0, h⟩, mk_mag hw (by positivity)]
    · rw [flush_of fun q => h0 q.1]; omega
  · rw [if_neg h, flush_of fun q => h q.2]

theorem flush_idem (hw : FW w) (x : BitVec w) : flush (flush x) = flush x := by
  refine flush_of fun h => ?_
  unfold Subnormal at h
  rw [flush_mag hw] at h
  split_ifs at h <;> omega

theorem pre_lt_inf (hw : FW w) : 2 ^ (prec w - 1) < infBits w := by rcases hw with e | e <;> subst e <;> decide

theorem flush_nan (hw : FW w) (x : BitVec w) : isNaN (flush x) = isNaN x := by
  unfold isNaN; rw [flush_mag hw]
  have := pre_lt_inf hw
  split_ifs with h
  · exact decide_eq_decide.2 (by omega)
  · rfl

theorem flush_finite (hw : FW w) (x : BitVec w) : isFinite (flush x) = isFinite x := by
  unfold isFinite; rw [flush_mag hw]
  have := pre_lt_inf hw
  split_ifs with h
  · exact decide_eq_decide.2 (by omega)
  · rfl

theorem key_flush (hw : FW w) (x : BitVec w) : key (flush x) = if mag x < 2 ^ (prec w - 1) then 0 else key x := by
  unfold key
  rw [flush_msb hw, flush_mag hw]
  split_ifs <;> simp

/-- Flushing keeps the order, not strictly. -/
theorem key_mono (hw : FW w) {x y : BitVec w} (h : key x ≤ key y) : key (flush x) ≤ key (flush y) := by
  rw [key_flush hw, key_flush hw]
  have hx : key x = mag x ∨ key x = -(mag x : Int) := by unfold key; split_ifs <;> simp
  have hy : key y = mag y ∨ key y = -(mag y : Int) := by unfold key; split_ifs <;> simp
  split_ifs <;> omega

theorem num_flush (hw : FW w) (x : BitVec w) : num (flush x) = if mag x < 2 ^ (prec w - 1) then 0 else num x := by
  unfold num
  rw [flush_msb hw, flush_mag hw]
  split_ifs <;> simp [numMag_zero]

theorem num_low {x : BitVec w} (h : mag x < 2 ^ (prec w - 1)) : (num x).natAbs = mag x := by
  unfold num; rw [numMag_low h]; split_ifs <;> simp

end Spec.Ftz

open Spec.Ftz

/-! ## The functions -/

section
variable {c : Cfg} (h : c.Ok) (hz : c.neonZ = true)
include h hz

theorem neonZ_maskVec : ¬ c.maskBits .flt 32 .r128 = true := by
  unfold Cfg.neonZ Cfg.neon32 at hz
  simp only [Bool.and_eq_true, Bool.not_eq_true'] at hz
  obtain ⟨⟨h1, h2⟩, h3⟩ := hz
  intro q
  unfold Cfg.maskBits at q
  dsimp only at q
  split_ifs at q with g1 g2 g3 <;> first | contradiction | omega | (clear q; exfalso; cfg_absurd h)

omit h hz in
theorem minN_lesser (x y : BitVec w) : Hw.minN x y = lesser x y := rfl

omit h hz in
theorem maxN_greater (x y : BitVec w) : Hw.maxN x y = greater x y := rfl


omit h hz in
theorem onFlt_tab (x y : BitVec w) : Rel.onFlt .eq x y = feq x y ∧ Rel.onFlt .ne x y = fne x y ∧ Rel.onFlt .lt x y = flt x y ∧
    Rel.onFlt .le x y = fle x y ∧ Rel.onFlt .gt x y = fgt x y ∧ Rel.onFlt .ge x y = fge x y := by
  unfold Rel.onFlt fne fgt fge feq flt fle ordered
  cases isNaN x <;> cases isNaN y <;> simp [Rel.onInt]

theorem z_cmp_eq_eq (eqz : Bool) (a b : Vec 32 n) :
    z_cmp_eq c eqz a b = some (Mask.of c .flt .r128 (fun i => Ftz.rel eqz .eq (a i) (b i))) := by
  unfold z_cmp_eq
  rw [if_pos hz]
  refine retV_eq (neonZ_maskVec h hz) (sel_eq (funext fun i => ?_))
  cases eqz
  · exact (onFlt_tab _ _).1.symm
  · exact (onFlt_tab _ _).1.symm

theorem z_cmp_run (eqz : Bool) (R : Rel) (a b : Vec 32 n) :
    z_cmp c eqz R a b = some (Mask.of c .flt .r128 (fun i => Ftz.rel eqz R (a i) (b i))) := by
  have hv := neonZ_maskVec h hz
  cases R
  · exact z_cmp_eq_eq h hz eqz a b
  · show z_cmp_neq c eqz a b = _
    unfold z_cmp_neq
    refine (bind_of (z_cmp_eq_eq h hz eqz a b) _).trans ((i_bit_not_m_eq h (k := .flt) (Or.inl rfl) (r := .r128) rfl _).trans ?_)
    refine congrArg some (congrArg _ (funext fun i => ?_))
    cases eqz
    · show (!Rel.onFlt .eq _ _) = Rel.onFlt .ne _ _
      rw [(onFlt_tab _ _).1, (onFlt_tab _ _).2.1]; rfl
    · show (!Rel.onFlt .eq _ _) = Rel.onFlt .ne _ _
      rw [(onFlt_tab _ _).1, (onFlt_tab _ _).2.1]; rfl
  · show z_cmp_lt c a b = _
    unfold z_cmp_lt
    rw [if_pos hz]
    refine retV_eq hv (sel_eq (funext fun i => ?_))
    cases eqz <;> exact (onFlt_tab _ _).2.2.1.symm
  · show z_cmp_le c a b = _
    unfold z_cmp_le
    rw [if_pos hz]
    refine retV_eq hv (sel_eq (funext fun i => ?_))
    cases eqz <;> exact (onFlt_tab _ _).2.2.2.1.symm
  · show z_cmp_gt c a b = _
    unfold z_cmp_gt
    rw [if_pos hz]
    refine retV_eq hv (sel_eq (funext fun i => ?_))
    cases eqz <;> exact (onFlt_tab _ _).2.2.2.2.1.symm
  · show z_cmp_ge c a b = _
    unfold z_cmp_ge
    rw [if_pos hz]
    refine retV_eq hv (sel_eq (funext fun i => ?_))
    cases eqz <;> exact (onFlt_tab _ _).2.2.2.2.2.symm

omit h hz in
theorem ne_self (eqz : Bool) (x : BitVec 32) : Ftz.rel eqz .ne x x = isNaN x := by
  have e : ∀ y : BitVec 32, Rel.onFlt .ne y y = isNaN y := fun y => by
    rw [(onFlt_tab _ _).2.1]
    unfold fne feq ordered
    cases isNaN y <;> simp
  cases eqz
  · exact e x
  · exact (e _).trans (flush_nan (Or.inl rfl) x)

theorem z_isnan_eq (eqz : Bool) (a : Vec 32 n) : z_isnan c eqz a = some (Mask.of c .flt .r128 (fun i => isNaN (a i))) := by
  refine (z_cmp_run h hz eqz .ne a a).trans (congrArg some (congrArg _ (funext fun i => ?_)))
  exact ne_self eqz (a i)

omit h hz in
theorem sub_self_nan (hw : FW w) {y : BitVec w} (hf : isFinite y = false) : isNaN (Fp.sub y y) = true := by
  obtain ⟨c1, c2, c3⟩ := neg_class hw y
  unfold Fp.sub Fp.add
  rw [c1, c2, neg_msb hw]
  rcases finite_or y with hx | hx | hx
  · rw [if_pos (by simp [hx])]
    exact nan_isNaN hw
  · have hn : Flt.isNaN y = false := by
      unfold isInf at hx; unfold Flt.isNaN; have := of_decide_eq_true hx; exact decide_eq_false (by omega)
    rw [if_neg (by simp [hn]), if_pos hx, if_pos (by rw [hx]; cases y.msb <;> rfl)]
    exact nan_isNaN hw
  · rw [hx] at hf; cases hf

omit h hz in
theorem z_sub_self (eqz : Bool) (x : BitVec 32) : Ftz.rel eqz .eq (Ftz.sub x x) 0 = isFinite x := by
  have hw : FW 32 := Or.inl rfl
  have f0 : Ftz.flush (0 : BitVec 32) = 0 := by decide +kernel
  have k0 : key (0 : BitVec 32) = 0 := by decide
  have n0 : isNaN (0 : BitVec 32) = false := by decide
  have e3 : feq (Ftz.sub x x) 0 = isFinite x := by
    by_cases fx : isFinite x = true
    · have e := sub_self_eq hw (Ftz.flush x)
      rw [flush_finite hw, fx] at e
      rw [fx]
      unfold feq ordered at e ⊢
      unfold Ftz.sub
      rw [flush_nan hw, key_flush hw, k0, n0]
      rw [k0, n0] at e
      simp only [Bool.and_eq_true, decide_eq_true_eq] at e ⊢
      refine ⟨e.1, ?_⟩
      rw [e.2, ite_self]
    · have hf : isFinite x = false := by simpa using fx
      have := sub_self_nan hw (y := Ftz.flush x) (by rw [flush_finite hw]; exact hf)
      unfold feq ordered Ftz.sub
      rw [flush_nan hw, this, hf]
      rfl
  cases eqz
  · exact (onFlt_tab _ _).1.trans e3
  · show Rel.onFlt .eq (Ftz.flush (Ftz.flush _)) (Ftz.flush 0) = _
    rw [flush_idem hw, f0]
    exact (onFlt_tab _ _).1.trans e3

theorem z_isfinite_eq (eqz : Bool) (a : Vec 32 n) : z_isfinite c eqz a = some (Mask.of c .flt .r128 (fun i => isFinite (a i))) := by
  unfold z_isfinite z_fsub
  rw [if_pos hz]
  refine (z_cmp_eq_eq h hz eqz _ _).trans (congrArg some (congrArg _ (funext fun i => ?_)))
  exact z_sub_self eqz (a i)

theorem z_op1_eq (o : FOp1) (ok : FOp1Ok o = true) (a : Vec 32 n) : z_op1 c o a = some (fun i => o.lane (a i)) := by
  cases o
  · exact FOp1.run_eq h (Or.inl rfl) (r := .r128) rfl Est.exact .neg trivial a
  · exact FOp1.run_eq h (Or.inl rfl) (r := .r128) rfl Est.exact .abs trivial a
  · cases ok
  · exact FOp1.run_eq h (Or.inl rfl) (r := .r128) rfl Est.exact .not trivial a

theorem z_op2_eq (o : FOp2) (ok : FOp2Ok o = true) (a b : Vec 32 n) : z_op2 c o a b = some (fun i => Ftz.lane2 (a i) (b i) o) := by
  obtain ⟨I, hI, -, -⟩ := impl_ex h (w := 32) (Or.inl rfl) (r := .r128) rfl
  cases o
  · exact if_pos hz
  · exact if_pos hz
  · exact if_pos hz
  · cases ok
  · exact if_pos hz
  · exact if_pos hz
  · exact FOp2.run_eq h (Or.inl rfl) (r := .r128) rfl hI Est.exact .copysign trivial a b
  · exact FOp2.run_eq h (Or.inl rfl) (r := .r128) rfl hI Est.exact .and trivial a b
  · exact FOp2.run_eq h (Or.inl rfl) (r := .r128) rfl hI Est.exact .or trivial a b
  · exact FOp2.run_eq h (Or.inl rfl) (r := .r128) rfl hI Est.exact .xor trivial a b
  · exact FOp2.run_eq h (Or.inl rfl) (r := .r128) rfl hI Est.exact .andnot trivial a b

theorem runZ_eq (eqz : Bool) (hL : L = 4) (jv : Fin K → Vec 32 L) (jm : Fin K → Mask 32 L)
    (env : Nat → Fin K → Vec 32 L) : {t : FTy} → (e : FExp 32 t) → Ftz.Ok e = true →
    runZ c eqz jv jm env e = some (fprep c .r128 fun k l => Ftz.den eqz (fun x => env x k l) e)
  | _, .var x, _ => rfl
  | _, .lit v, _ => by
    unfold runZ
    refine Arr.apply1_all (fun k => ?_) _
    rw [i_make_const_flt_eq h (Or.inl rfl) (r := .r128) rfl (hL.trans rfl) _ _ (by rw [Nat.zero_add, hL]; exact Nat.mul_mod_right _ _)]
    rfl
  | _, .op1 o a, ok => by
    unfold Ftz.Ok at ok
    rw [Bool.and_eq_true] at ok
    unfold runZ
    rw [runZ_eq eqz hL jv jm env a ok.2]
    exact Arr.apply1_all (fun k => z_op1_eq h hz o ok.1 _) _
  | _, .op2 o a b, ok => by
    unfold Ftz.Ok at ok
    simp only [Bool.and_eq_true] at ok
    unfold runZ
    rw [runZ_eq eqz hL jv jm env a ok.1.2, runZ_eq eqz hL jv jm env b ok.2]
    exact Arr.apply2_all (fun k => z_op2_eq h hz o ok.1.1 _ _) _
  | _, .fmadd _ _ _, ok => by cases ok
  | _, .fmsub _ _ _, ok => by cases ok
  | _, .cmp R a b, ok => by
    unfold Ftz.Ok at ok
    rw [Bool.and_eq_true] at ok
    unfold runZ
    rw [runZ_eq eqz hL jv jm env a ok.1, runZ_eq eqz hL jv jm env b ok.2]
    exact Arr.apply2_all (fun k => z_cmp_run h hz eqz R _ _) _
  | _, .isnan a, ok => by
    unfold runZ
    rw [runZ_eq eqz hL jv jm env a ok]
    exact Arr.apply1_all (fun k => z_isnan_eq h hz eqz _) _
  | _, .isfinite a, ok => by
    unfold runZ
    rw [runZ_eq eqz hL jv jm env a ok]
    exact Arr.apply1_all (fun k => z_isfinite_eq h hz eqz _) _
  | _, .opm o a b, ok => by
    unfold Ftz.Ok at ok
    rw [Bool.and_eq_true] at ok
    unfold runZ
    rw [runZ_eq eqz hL jv jm env a ok.1, runZ_eq eqz hL jv jm env b ok.2]
    exact Arr.apply2_all (fun k => FOpM.run_eq h (w := 32) (Or.inl rfl) (r := .r128) rfl o _ _) _
  | _, .notm a, ok => by
    unfold runZ
    rw [runZ_eq eqz hL jv jm env a ok]
    exact Arr.apply1_all (fun k => i_bit_not_m_eq h (k := .flt) (Or.inl rfl) (r := .r128) rfl _) _
  | _, .andm a m, ok => by
    unfold Ftz.Ok at ok
    rw [Bool.and_eq_true] at ok
    unfold runZ
    rw [runZ_eq eqz hL jv jm env a ok.1, runZ_eq eqz hL jv jm env m ok.2]
    exact Arr.apply2_all (fun k => i_bit_and_vm_eq h (k := .flt) (Or.inl rfl) (r := .r128) rfl _ _) _
  | _, .andnotm a m, ok => by
    unfold Ftz.Ok at ok
    rw [Bool.and_eq_true] at ok
    unfold runZ
    rw [runZ_eq eqz hL jv jm env a ok.1, runZ_eq eqz hL jv jm env m ok.2]
    exact Arr.apply2_all (fun k => i_bit_andnot_vm_eq h (k := .flt) (Or.inl rfl) (r := .r128) rfl _ _) _
  | _, .blend a b m, ok => by
    unfold Ftz.Ok at ok
    simp only [Bool.and_eq_true] at ok
    unfold runZ
    rw [runZ_eq eqz hL jv jm env a ok.1.1, runZ_eq eqz hL jv jm env b ok.1.2, runZ_eq eqz hL jv jm env m ok.2]
    exact Arr.apply3_all (fun k => i_blend_vm_eq h (k := .flt) (Or.inl rfl) (r := .r128) rfl _ _ _) _

/-! ## C68 -/

/-- **C68.** On 32-bit NEON every floating-point expression, on any number of registers, is in every lane the scalar computation with
flush-to-zero arithmetic on that lane of the variables. -/
theorem C68_program (eqz : Bool) (e : FExp 32 .vec) (ok : Ftz.Ok e = true) (jv : Fin K → Vec 32 4) (jm : Fin K → Mask 32 4)
    (env : Nat → Fin K → Vec 32 4) : ∃ v, runZ c eqz jv jm env e = some v ∧ ∀ k l, v k l = Ftz.den eqz (fun x => env x k l) e :=
  ⟨_, runZ_eq h hz eqz rfl jv jm env e ok, fun _ _ => rfl⟩

/-- **C68.** Conditions likewise: a lane of the mask, seen as a vector, is all ones where the scalar condition holds and zero elsewhere. -/
theorem C68_condition (eqz : Bool) (e : FExp 32 .mask) (ok : Ftz.Ok e = true) (jv : Fin K → Vec 32 4) (jm : Fin K → Mask 32 4)
    (env : Nat → Fin K → Vec 32 4) : ∃ v, runZ c eqz jv jm env e = some v ∧
      ∀ k l, (v k).unmask l = maskLane 32 (Ftz.den eqz (fun x => env x k l) e) :=
  ⟨_, runZ_eq h hz eqz rfl jv jm env e ok, fun _ _ => congrFun (Mask.unmask_of ..) _⟩

/-- **C68.** The same for vectors `float32<N>` of any length. -/
theorem C68_eval {N : Nat} (hN : N % 4 = 0) (eqz : Bool) (e : FExp 32 .vec) (ok : Ftz.Ok e = true) (jv : Nat → Vec 32 4) (jm : Nat → Mask 32 4)
    (env : Nat → Vec 32 N) : evalZ c eqz jv jm e env = some (fun j => Ftz.den eqz (fun x => env x j) e) := by
  unfold evalZ
  have eN : N = N / 4 * 4 := by omega
  have idx : ∀ (k : Fin (N / 4)) (l : Fin 4), k.val * 4 + l.val < N := fun k l => by
    have := k.isLt; have := l.isLt; omega
  have ep : ∀ x (k : Fin (N / 4)) (l : Fin 4), Hw.part 4 k.val (env x) l = env x ⟨k.val * 4 + l.val, idx k l⟩ := fun x k l => Vec.at_lt _ (idx k l)
  rw [runZ_eq h hz eqz rfl _ _ _ e ok]
  show catM 4 _ = _
  refine catM_regs (by decide) eN fun j hj => ?_
  rw [dif_pos hj]
  refine congrArg some (funext fun l => ?_)
  show Ftz.den eqz _ e = Vec.at_ _ _
  rw [Vec.at_lt _ (idx ⟨j, hj⟩ l)]
  exact congrArg (fun f => Ftz.den eqz f e) (funext fun x => ep x ⟨j, hj⟩ l)

end

end Simdpp
