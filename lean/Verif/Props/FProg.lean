import Verif.Model.FProg
import Verif.Props.Kernel
import Verif.Props.FMul
import Verif.Props.FDiv
import Verif.Props.FRoundLane

/-!
# C56: a floating-point program means the IEEE program, on every build
-/

namespace Simdpp
open Spec Spec.FProg

variable {w L K : Nat}

attribute [local irreducible] Fp.mul Fp.fma Fp.sub Fp.add Fp.round Fp.div Fp.sqrt

/-- The operation is an IEEE operation on the build: `div` and `sqrt` are computed from reciprocal estimates on some (C52). -/
def Spec.FProg.FOp2.Ok (c : Cfg) (w : Nat) : FOp2 → Prop
  | .div => ¬ c.divByRcp w
  | _ => True

def Spec.FProg.FOp1.Ok (c : Cfg) (w : Nat) : FOp1 → Prop
  | .sqrt => ¬ c.sqrtByRsqrt w
  | _ => True

/-- Every operation of the expression exists on the build and is the IEEE operation (C50, C52 prove what happens elsewhere). -/
def Spec.FProg.FExp.Ok (c : Cfg) (r : Reg) : {t : FTy} → FExp w t → Prop
  | _, .var _ => True
  | _, .lit _ => True
  | _, .op1 o a => a.Ok c r ∧ o.Ok c w
  | _, .op2 o a b => a.Ok c r ∧ b.Ok c r ∧ o.Ok c w
  | _, .fmadd x y z => x.Ok c r ∧ y.Ok c r ∧ z.Ok c r ∧ c.hasFma r ∧ c.neon64 = false
  | _, .fmsub x y z => x.Ok c r ∧ y.Ok c r ∧ z.Ok c r ∧ c.hasFma r ∧ c.neon64 = false ∧ c.msa = false
  | _, .cmp _ a b => a.Ok c r ∧ b.Ok c r
  | _, .isnan a => a.Ok c r
  | _, .isfinite a => a.Ok c r
  | _, .opm _ a b => a.Ok c r ∧ b.Ok c r
  | _, .notm a => a.Ok c r
  | _, .andm a m => a.Ok c r ∧ m.Ok c r
  | _, .andnotm a m => a.Ok c r ∧ m.Ok c r
  | _, .blend a b m => a.Ok c r ∧ b.Ok c r ∧ m.Ok c r

/-- The registers holding given lanes. -/
def fprep (c : Cfg) (r : Reg) : {t : FTy} → (Fin K → Fin L → t.Lane w) → FVal w L K t
  | .vec, f => f
  | .mask, f => fun k => Mask.of c .flt r (f k)

namespace Spec.Fp

theorem bits_mk (hw : FW w) {x r : BitVec w} {b : Bool} (h : ∀ i, r.getLsbD i = if i = w - 1 then b else x.getLsbD i) :
    r = mk w b (Flt.mag x) := by
  have hp : 0 < w := by rcases hw with e | e <;> subst e <;> decide
  refine ext_sm hw ?_ ?_
  · rw [mk_msb hw (mag_lt hw x), BitVec.msb_eq_getLsbD_last, h, if_pos rfl]
  · rw [mk_mag hw (mag_lt hw x)]
    unfold Flt.mag
    apply Nat.eq_of_testBit_eq
    intro i
    rw [Nat.testBit_mod_two_pow, Nat.testBit_mod_two_pow]
    by_cases hi : i < w - 1
    · have := h i
      rw [if_neg (by omega)] at this
      rw [show r.toNat.testBit i = x.toNat.testBit i from this]
    · rw [decide_eq_false hi, Bool.false_and, Bool.false_and]

end Spec.Fp

section
variable {c : Cfg} (h : c.Ok) (hw : w = 32 ∨ w = 64) {r : Reg} (hr : c.hasVec .flt w r = true)
include h hw hr

theorem FOp1.run_eq (E : Est) (o : FOp1) (ok : o.Ok c w) (a : Vec w L) : o.run c E r a = some (fun i => o.lane (a i)) := by
  cases o
  · refine (i_fneg_eq h hw hr a).trans (congrArg some (funext fun i => ?_))
    refine Fp.bits_mk hw fun j => ?_
    show (a i ^^^ BitVec.ofNat w (2 ^ (w - 1))).getLsbD j = _
    rw [BitVec.getLsbD_xor, sign_bit hw]
    by_cases hj : j = w - 1
    · rw [if_pos hj, decide_eq_true hj, hj, Bool.xor_true, BitVec.msb_eq_getLsbD_last]
    · rw [if_neg hj, decide_eq_false hj, Bool.xor_false]
  · refine (i_fabs_eq h hw hr a).trans (congrArg some (funext fun i => ?_))
    exact Simdpp.fabs_eq_mk hw _
  · exact i_sqrt_eq h hw hr ok E a
  · exact i_bit_not_eq h (k := .flt) hw hr a

theorem FOpM.run_eq (o : FOpM) (f g : Fin L → Bool) :
    o.run c r (Mask.of c .flt r f : Mask w L) (Mask.of c .flt r g) = some (Mask.of c .flt r (fun i => o.lane (f i) (g i))) := by
  cases o
  · exact i_bit_and_mm_eq h (k := .flt) hw hr f g
  · exact i_bit_or_mm_eq h (k := .flt) hw hr f g
  · exact i_bit_xor_mm_eq h (k := .flt) hw hr f g
  · exact i_bit_andnot_mm_eq h (k := .flt) hw hr f g

/-- The choices of a build are those of its instructions. -/
def IsImpl (c : Cfg) (r : Reg) (I : Impl w) : Prop :=
  (∀ n (a b : Vec w n), i_fmul c r a b = some (fun i => I.mul (a i) (b i))) ∧
  (∀ n (a b : Vec w n), i_fmin c r a b = some (fun i => I.min (a i) (b i))) ∧
  (∀ n (a b : Vec w n), i_fmax c r a b = some (fun i => I.max (a i) (b i)))

theorem impl_ex : ∃ I : Impl w, IsImpl c r I ∧ I.Ok ∧ (¬ c.mulByFma w r → I.mul = Fp.mul) := by
  obtain ⟨g, hg, eg⟩ := i_fmin_ex h hw hr
  obtain ⟨g', hg', eg'⟩ := i_fmax_ex h hw hr
  by_cases hp : c.mulByFma w r
  · refine ⟨⟨fun x y => Fp.fma x y 0, g, g'⟩, ⟨fun n a b => ?_, eg, eg'⟩,
      ⟨fun x y => Fp.fma_zero hw x y, fun x y => (hg x y).1, fun x y => (hg' x y).1, fun x y => (hg x y).2, fun x y => (hg' x y).2⟩, fun q => absurd hp q⟩
    clear * - h hp hr
    obtain ⟨e, e2, e3, e4⟩ := hp
    subst e e2
    unfold i_fmul
    dsimp only
    rw [if_pos rfl]
    split_ifs <;> first | rfl | cfg_absurd h
  · exact ⟨⟨Fp.mul, g, g'⟩, ⟨fun n a b => i_fmul_eq h hr hp a b, eg, eg'⟩,
      ⟨fun x y => Or.inl rfl, fun x y => (hg x y).1, fun x y => (hg' x y).1, fun x y => (hg x y).2, fun x y => (hg' x y).2⟩, fun _ => rfl⟩

theorem FOp2.run_eq {I : Impl w} (hI : IsImpl c r I) (E : Est) (o : FOp2) (ok : o.Ok c w) (a b : Vec w L) :
    o.run c E r a b = some (fun i => o.lane I (a i) (b i)) := by
  cases o
  · exact i_fadd_eq h hr a b
  · exact i_fsub_eq h hr a b
  · exact hI.1 _ a b
  · exact i_div_eq h hw hr ok E a b
  · exact hI.2.1 _ a b
  · exact hI.2.2 _ a b
  · obtain ⟨res, e, he⟩ := C32_copysign h hw hr a b
    refine e.trans (congrArg some (funext fun i => Fp.bits_mk hw fun j => ?_))
    rw [he]
    by_cases hj : j = w - 1
    · rw [if_pos hj, if_pos hj, hj, BitVec.msb_eq_getLsbD_last]
    · rw [if_neg hj, if_neg hj]
  · exact i_bit_and_eq h (k := .flt) hw hr a b
  · exact i_bit_or_eq h (k := .flt) hw hr a b
  · exact i_bit_xor_eq h (k := .flt) hw hr a b
  · exact i_bit_andnot_eq h (k := .flt) hw hr a b

theorem FExp.run_eq {I : Impl w} (hI : IsImpl c r I) (E : Est) (hL : L = r.lanes w) (jv : Fin K → Vec w L) (jm : Fin K → Mask w L)
    (env : Nat → Fin K → Vec w L) : {t : FTy} → (e : FExp w t) → e.Ok c r →
    e.run c E r jv jm env = some (fprep c r fun k l => e.den I fun x => env x k l)
  | _, .var x, _ => rfl
  | _, .lit v, _ => by
    unfold FExp.run
    refine Arr.apply1_all (fun k => ?_) _
    rw [i_make_const_flt_eq h hw hr hL _ _ (by rw [Nat.zero_add, hL]; exact Nat.mul_mod_right _ _)]
    rfl
  | _, .op1 o a, ok => by
    unfold FExp.run
    rw [FExp.run_eq hI E hL jv jm env a ok.1]
    exact Arr.apply1_all (fun k => FOp1.run_eq h hw hr E o ok.2 _) _
  | _, .op2 o a b, ok => by
    unfold FExp.run
    rw [FExp.run_eq hI E hL jv jm env a ok.1, FExp.run_eq hI E hL jv jm env b ok.2.1]
    exact Arr.apply2_all (fun k => FOp2.run_eq h hw hr hI E o ok.2.2 _ _) _
  | _, .fmadd x y z, ok => by
    unfold FExp.run
    rw [FExp.run_eq hI E hL jv jm env x ok.1, FExp.run_eq hI E hL jv jm env y ok.2.1, FExp.run_eq hI E hL jv jm env z ok.2.2.1]
    refine Arr.apply3_all (fun k => ?_) _
    obtain ⟨res, e, he⟩ := C50_fmadd_partial h hr ok.2.2.2.1 ok.2.2.2.2 (fun l => x.den I fun v => env v k l) (fun l => y.den I fun v => env v k l)
      (fun l => z.den I fun v => env v k l)
    exact e.trans (congrArg some (funext he))
  | _, .fmsub x y z, ok => by
    unfold FExp.run
    rw [FExp.run_eq hI E hL jv jm env x ok.1, FExp.run_eq hI E hL jv jm env y ok.2.1, FExp.run_eq hI E hL jv jm env z ok.2.2.1]
    refine Arr.apply3_all (fun k => ?_) _
    obtain ⟨res, e, he⟩ := C50_fmsub_partial h hr ok.2.2.2.1 ok.2.2.2.2.1 ok.2.2.2.2.2 (fun l => x.den I fun v => env v k l)
      (fun l => y.den I fun v => env v k l) (fun l => z.den I fun v => env v k l)
    exact e.trans (congrArg some (funext he))
  | _, .cmp R a b, ok => by
    unfold FExp.run
    rw [FExp.run_eq hI E hL jv jm env a ok.1, FExp.run_eq hI E hL jv jm env b ok.2]
    exact Arr.apply2_all (fun k => cmpFlt_eq h hw hr R _ _) _
  | _, .isnan a, ok => by
    unfold FExp.run
    rw [FExp.run_eq hI E hL jv jm env a ok]
    exact Arr.apply1_all (fun k => i_isnan_eq h hw hr _) _
  | _, .isfinite a, ok => by
    unfold FExp.run
    rw [FExp.run_eq hI E hL jv jm env a ok]
    exact Arr.apply1_all (fun k => isfinite_eq h hw hr _) _
  | _, .opm o a b, ok => by
    unfold FExp.run
    rw [FExp.run_eq hI E hL jv jm env a ok.1, FExp.run_eq hI E hL jv jm env b ok.2]
    exact Arr.apply2_all (fun k => FOpM.run_eq h hw hr o _ _) _
  | _, .notm a, ok => by
    unfold FExp.run
    rw [FExp.run_eq hI E hL jv jm env a ok]
    exact Arr.apply1_all (fun k => i_bit_not_m_eq h (k := .flt) hw hr _) _
  | _, .andm a m, ok => by
    unfold FExp.run
    rw [FExp.run_eq hI E hL jv jm env a ok.1, FExp.run_eq hI E hL jv jm env m ok.2]
    exact Arr.apply2_all (fun k => i_bit_and_vm_eq h (k := .flt) hw hr _ _) _
  | _, .andnotm a m, ok => by
    unfold FExp.run
    rw [FExp.run_eq hI E hL jv jm env a ok.1, FExp.run_eq hI E hL jv jm env m ok.2]
    exact Arr.apply2_all (fun k => i_bit_andnot_vm_eq h (k := .flt) hw hr _ _) _
  | _, .blend a b m, ok => by
    unfold FExp.run
    rw [FExp.run_eq hI E hL jv jm env a ok.1, FExp.run_eq hI E hL jv jm env b ok.2.1, FExp.run_eq hI E hL jv jm env m ok.2.2]
    exact Arr.apply3_all (fun k => i_blend_vm_eq h (k := .flt) hw hr _ _ _) _

/-! ## C56 -/

/-- **C56.** Every build makes one choice `I` of what IEEE 754 leaves open (the sign of a zero product, `min` and `max` of equal zeros and of NaN), and
every floating-point expression, evaluated operator by operator on any number of registers, is in every lane the scalar IEEE computation with
that choice on that lane of the variables, whatever the result registers held before. The choice for the product is the IEEE product
except on AltiVec without VSX. -/
theorem C56_program (E : Est) : ∃ I : Impl w, I.Ok ∧ (¬ c.mulByFma w r → I.mul = Fp.mul) ∧
    ∀ (K : Nat) (e : FExp w .vec) (jv : Fin K → Vec w (r.lanes w)) (jm : Fin K → Mask w (r.lanes w)) (env : Nat → Fin K → Vec w (r.lanes w)), e.Ok c r →
      ∃ v, e.run c E r jv jm env = some v ∧ ∀ k l, v k l = e.den I fun x => env x k l := by
  obtain ⟨I, h1, h2, h3⟩ := impl_ex h hw hr
  exact ⟨I, h2, h3, fun K e jv jm env ok => ⟨_, FExp.run_eq h hw hr h1 E rfl jv jm env e ok, fun _ _ => rfl⟩⟩

/-- **C56.** Conditions likewise: a lane of the mask, seen as a vector, is all ones where the scalar condition holds and zero elsewhere. -/
theorem C56_condition (E : Est) : ∃ I : Impl w, I.Ok ∧ (¬ c.mulByFma w r → I.mul = Fp.mul) ∧
    ∀ (K : Nat) (e : FExp w .mask) (jv : Fin K → Vec w (r.lanes w)) (jm : Fin K → Mask w (r.lanes w)) (env : Nat → Fin K → Vec w (r.lanes w)), e.Ok c r →
      ∃ v, e.run c E r jv jm env = some v ∧ ∀ k l, (v k).unmask l = maskLane w (e.den I fun x => env x k l) := by
  obtain ⟨I, h1, h2, h3⟩ := impl_ex h hw hr
  exact ⟨I, h2, h3, fun K e jv jm env ok => ⟨_, FExp.run_eq h hw hr h1 E rfl jv jm env e ok, fun k l => congrFun (Mask.unmask_of ..) l⟩⟩

end

/-- Without `min` and `max` the choice for these does not matter. -/
theorem FExp.den_congr {I J : Impl w} (hm : I.mul = J.mul) (env : Nat → BitVec w) : {t : FTy} → (e : FExp w t) → e.noMinMax = true →
    e.den I env = e.den J env
  | _, .var x, _ => rfl
  | _, .lit v, _ => rfl
  | _, .op1 o a, q => congrArg (fun x : BitVec w => o.lane x) (FExp.den_congr hm env a q)
  | _, .op2 o a b, q => by
    simp only [FExp.noMinMax, Bool.and_eq_true] at q
    have e1 := FExp.den_congr hm env a q.1.2
    have e2 := FExp.den_congr hm env b q.2
    unfold FExp.den
    rw [e1, e2]
    cases o <;> first | rfl | (exact absurd q.1.1 (by decide)) | exact congrFun (congrFun hm _) _
  | _, .fmadd a b c, q => by
    simp only [FExp.noMinMax, Bool.and_eq_true] at q
    unfold FExp.den
    rw [FExp.den_congr hm env a q.1.1, FExp.den_congr hm env b q.1.2, FExp.den_congr hm env c q.2]
  | _, .fmsub a b c, q => by
    simp only [FExp.noMinMax, Bool.and_eq_true] at q
    unfold FExp.den
    rw [FExp.den_congr hm env a q.1.1, FExp.den_congr hm env b q.1.2, FExp.den_congr hm env c q.2]
  | _, .cmp R a b, q => by
    simp only [FExp.noMinMax, Bool.and_eq_true] at q
    unfold FExp.den
    rw [FExp.den_congr hm env a q.1, FExp.den_congr hm env b q.2]
  | _, .isnan a, q => congrArg (fun x : BitVec w => Flt.isNaN x) (FExp.den_congr hm env a q)
  | _, .isfinite a, q => congrArg (fun x : BitVec w => Fp.isFinite x) (FExp.den_congr hm env a q)
  | _, .opm o a b, q => by
    simp only [FExp.noMinMax, Bool.and_eq_true] at q
    unfold FExp.den
    rw [FExp.den_congr hm env a q.1, FExp.den_congr hm env b q.2]
  | _, .notm a, q => congrArg Bool.not (FExp.den_congr hm env a q)
  | _, .andm a m, q => by
    simp only [FExp.noMinMax, Bool.and_eq_true] at q
    unfold FExp.den
    rw [FExp.den_congr hm env a q.1, FExp.den_congr hm env m q.2]
  | _, .andnotm a m, q => by
    simp only [FExp.noMinMax, Bool.and_eq_true] at q
    unfold FExp.den
    rw [FExp.den_congr hm env a q.1, FExp.den_congr hm env m q.2]
  | _, .blend a b m, q => by
    simp only [FExp.noMinMax, Bool.and_eq_true] at q
    unfold FExp.den
    rw [FExp.den_congr hm env a q.1.1, FExp.den_congr hm env b q.1.2, FExp.den_congr hm env m q.2]

theorem evalFR_eq {N : Nat} {c : Cfg} (h : c.Ok) (hw : w = 32 ∨ w = 64) {r : Reg} (hr : c.hasVec .flt w r = true) {K : Nat} (eN : N = K * r.lanes w)
    {I : Impl w} (hI : IsImpl c r I) (E : Est) (e : FExp w .vec) (jv : Nat → Vec w (r.lanes w))
    (jm : Nat → Mask w (r.lanes w)) (env : Nat → Vec w N) (ok : e.Ok c r) :
    evalFR c E r jv jm e env = some (fun j => e.den I fun x => env x j) := by
  unfold evalFR
  have hL := lanes_pos (Kind.okW.isW (k := .flt) hw) r
  have eK : N / r.lanes w = K := by rw [eN, Nat.mul_div_cancel _ hL]
  have idx : ∀ (k : Fin (N / r.lanes w)) (l : Fin (r.lanes w)), k.val * r.lanes w + l.val < N := fun k l => by
    have h1 : k.val < K := eK ▸ k.isLt
    have h2 := l.isLt
    have := Nat.mul_le_mul_right (r.lanes w) (show k.val + 1 ≤ K from h1)
    rw [← eN, Nat.add_mul, Nat.one_mul] at this
    omega
  have ep : ∀ x (k : Fin (N / r.lanes w)) (l : Fin (r.lanes w)),
      Hw.part (r.lanes w) k.val (env x) l = env x ⟨k.val * r.lanes w + l.val, idx k l⟩ := fun x k l => Vec.at_lt _ (idx k l)
  rw [FExp.run_eq h hw hr hI E rfl _ _ _ e ok]
  show catM (r.lanes w) _ = _
  refine catM_regs hL eN fun j hj => ?_
  rw [dif_pos (eK.symm ▸ hj)]
  refine congrArg some (funext fun l => ?_)
  show e.den I _ = Vec.at_ _ _
  rw [Vec.at_lt _ (idx ⟨j, eK.symm ▸ hj⟩ l)]
  exact congrArg (fun f => e.den I f) (funext fun x => ep x ⟨j, eK.symm ▸ hj⟩ l)

section
variable {N : Nat} {c : Cfg} (h : c.Ok) (hw : w = 32 ∨ w = 64) (hN : c.FLen w N)
include h hw hN

/-- **C56.** The same for vectors of any length `N` of the build. -/
theorem C56_eval (E : Est) : ∃ I : Impl w, I.Ok ∧ (¬ c.mulByFma w (c.regK .flt w N) → I.mul = Fp.mul) ∧
    ∀ (e : FExp w .vec) (jv : Nat → Vec w ((c.regK .flt w N).lanes w)) (jm : Nat → Mask w ((c.regK .flt w N).lanes w)) (env : Nat → Vec w N),
      e.Ok c (c.regK .flt w N) → evalF c E w N jv jm e env = some (fun j => e.den I fun x => env x j) := by
  obtain ⟨hr, K, -, eN⟩ := KLen.regs h (k := .flt) hw hN
  obtain ⟨I, h1, h2, h3⟩ := impl_ex h hw hr
  exact ⟨I, h2, h3, fun e jv jm env ok => evalFR_eq h hw hr eN h1 E e jv jm env ok⟩

/-- **C56.** An expression without `min` and `max` is exactly the IEEE computation, unless it runs on AltiVec without VSX. -/
theorem C56_ieee (E : Est) (hm : ¬ c.mulByFma w (c.regK .flt w N)) (e : FExp w .vec) (he : e.noMinMax = true)
    (jv : Nat → Vec w ((c.regK .flt w N).lanes w)) (jm : Nat → Mask w ((c.regK .flt w N).lanes w)) (env : Nat → Vec w N)
    (ok : e.Ok c (c.regK .flt w N)) : evalF c E w N jv jm e env = some (fun j => e.den ieee fun x => env x j) := by
  obtain ⟨I, -, h2, h3⟩ := C56_eval h hw hN E
  rw [h3 e jv jm env ok]
  exact congrArg some (funext fun j => FExp.den_congr (J := ieee) (h2 hm) _ e he)

/-- **C56.** Two such builds, whatever their registers, compute the same bits. -/
theorem C56_portable (E E' : Est) {c' : Cfg} (h' : c'.Ok) (hN' : c'.FLen w N) (hm : ¬ c.mulByFma w (c.regK .flt w N))
    (hm' : ¬ c'.mulByFma w (c'.regK .flt w N)) (e : FExp w .vec) (he : e.noMinMax = true)
    (jv : Nat → Vec w ((c.regK .flt w N).lanes w)) (jm : Nat → Mask w ((c.regK .flt w N).lanes w))
    (jv' : Nat → Vec w ((c'.regK .flt w N).lanes w)) (jm' : Nat → Mask w ((c'.regK .flt w N).lanes w)) (env : Nat → Vec w N)
    (ok : e.Ok c (c.regK .flt w N)) (ok' : e.Ok c' (c'.regK .flt w N)) :
    ∃ v, evalF c E w N jv jm e env = some v ∧ evalF c' E' w N jv' jm' e env = some v :=
  ⟨_, C56_ieee h hw hN E hm e he jv jm env ok, C56_ieee h' hw hN' E' hm' e he jv' jm' env ok'⟩

/-- **C56.** The vectorised loop over arrays of `float` or `double` is the scalar loop `for (j = 0; j < cnt; ++j) out[j] = f(in_0[j], ..)`, as for integers
(C55): every element of the output holds the scalar result with the choice `I` of the build, no other byte changes. -/
theorem C56_kernel (E : Est) : ∃ I : Impl w, I.Ok ∧ (¬ c.mulByFma w (c.regK .flt w N) → I.mul = Fp.mul) ∧
    ∀ (e : FExp w .vec) (be : Bool) {V : Nat} {p : Nat → Nat} {q cnt : Nat} (m : Mem) {A : Nat → Nat → BitVec w}
      (jv : Nat → Vec w ((c.regK .flt w N).lanes w)) (jm : Nat → Mask w ((c.regK .flt w N).lanes w)) {P : Nat},
      P = (cnt + (N - 1)) / N * N →
      (∀ x, x < V → ∀ j, j < P → Holds m.byte (p x + j * (w / 8)) (A x j)) → (∀ x, V ≤ x → ∀ j, A x j = 0) →
      (∀ x, x < V → p x % (c.regK .flt w N).bytes = 0) → q % (c.regK .flt w N).bytes = 0 →
      (∀ x, x < V → m.Block (p x) (P * (w / 8))) → m.Block q (P * (w / 8)) →
      (∀ x, x < V → q ≤ p x ∨ p x + P * (w / 8) ≤ q) → e.Ok c (c.regK .flt w N) →
      ∃ m', kernel c be .flt true w N V (evalF c E w N jv jm e) p q cnt m = some m' ∧ m'.ok = m.ok ∧
        (∀ j, j < cnt → Holds m'.byte (q + j * (w / 8)) (e.den I fun x => A x j)) ∧
        ∀ a, a < q ∨ q + cnt * (w / 8) ≤ a → m'.byte a = m.byte a := by
  obtain ⟨I, h1, h2, h3⟩ := C56_eval h hw hN E
  refine ⟨I, h1, h2, fun e be V p q cnt m A jv jm P hP hA hV hp hq hb hbq hd ok => ?_⟩
  obtain ⟨m', e1, e2, e3, e4⟩ := kernel_all h (k := .flt) hw hN (ev := evalF c E w N jv jm e) (F := fun ρ y => y = e.den I ρ) (G := fun _ => True)
    (fun env _ => ⟨_, h3 e jv jm env ok, fun _ => rfl⟩) be true m hP hA hV hp hq hb hbq hd (fun _ _ => trivial)
  refine ⟨m', e1, e2, fun j hj => ?_, e4⟩
  obtain ⟨y, ey, hy⟩ := e3 j hj
  exact ey ▸ hy

end

/-! ## A program -/

/-- `blend(x * y + 1.5f, x / y, x < y)`. -/
def fprogSample : FExp 32 .vec :=
  .blend (.op2 .add (.op2 .mul (.var 0) (.var 1)) (.lit 0x3fc00000#32)) (.op2 .div (.var 0) (.var 1)) (.cmp .lt (.var 0) (.var 1))

/-- On SSE2 (8 registers) and AVX512 (2 registers) the same bits. -/
example (E E' : Est) (env : Nat → Vec 32 32) (jv jm jv' jm') : ∃ v, evalF Cfg.sse2Only E 32 32 jv jm fprogSample env = some v ∧
    evalF Cfg.avx512All E' 32 32 jv' jm' fprogSample env = some v := by
  have n1 : ∀ r, ¬ Cfg.sse2Only.mulByFma 32 r := fun r q => absurd q.2.2.1 (by decide)
  have n2 : ∀ r, ¬ Cfg.avx512All.mulByFma 32 r := fun r q => absurd q.2.2.1 (by decide)
  exact C56_portable Cfg.sse2Only_ok (Or.inl rfl) (Or.inr ⟨8, by decide, by decide +kernel⟩) E E' Cfg.avx512All_ok (Or.inr ⟨2, by decide, by decide +kernel⟩) (n1 _) (n2 _) fprogSample rfl jv jm jv' jm' env
    ⟨⟨⟨trivial, trivial, trivial⟩, trivial, trivial⟩, ⟨trivial, trivial, by unfold FOp2.Ok Cfg.divByRcp; decide⟩, trivial, trivial⟩
    ⟨⟨⟨trivial, trivial, trivial⟩, trivial, trivial⟩, ⟨trivial, trivial, by unfold FOp2.Ok Cfg.divByRcp; decide⟩, trivial, trivial⟩

/-- One lane of it: `x = 1`, `y = 2` gives `3.5`; `x = 3`, `y = 2` gives `1.5`. -/
example : fprogSample.den ieee (fun x => if x = 0 then 0x3f800000 else 0x40000000) = 0x40600000#32 ∧
    fprogSample.den ieee (fun x => if x = 0 then 0x40400000 else 0x40000000) = 0x3fc00000#32 := by decide +kernel

end Simdpp
