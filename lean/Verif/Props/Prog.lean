import Verif.Model.Prog
import Verif.Props.Compare
import Verif.Props.MinMax
import Verif.Props.Shift
import Verif.Props.MulPub
import Verif.Props.Blend
import Verif.Props.MakeConst
import Verif.Props.Mem
import Verif.Props.Samples

/-!
# C54: a lane-wise program means the scalar program, on every build
-/

namespace Simdpp
open Spec Spec.Prog

variable {w L K : Nat} {ι : Type}

namespace Arr
variable {α β γ δ : Type} {k : Nat}

theorem apply1_all {op : α → Option β} {src : Fin k → α} {g : Fin k → β} (h : ∀ i, op (src i) = some (g i)) (d : Fin k → β) :
    apply1 op src 0 d = some g := (apply1_spec op src g h 0 d).trans (by simp)
theorem apply2_all {op : α → β → Option γ} {a : Fin k → α} {b : Fin k → β} {g : Fin k → γ} (h : ∀ i, op (a i) (b i) = some (g i))
    (d : Fin k → γ) : apply2 op a b 0 d = some g := (apply2_spec op a b g h 0 d).trans (by simp)
theorem apply2S_all {op : α → β → Option γ} {a : Fin k → α} {b : β} {g : Fin k → γ} (h : ∀ i, op (a i) b = some (g i))
    (d : Fin k → γ) : apply2S op a b 0 d = some g := (apply2S_spec op a b g h 0 d).trans (by simp)
theorem apply3_all {op : α → β → γ → Option δ} {a : Fin k → α} {b : Fin k → β} {e : Fin k → γ} {g : Fin k → δ}
    (h : ∀ i, op (a i) (b i) (e i) = some (g i)) (d : Fin k → δ) : apply3 op a b e 0 d = some g :=
  (apply3_spec op a b e g h 0 d).trans (by simp)
end Arr

/-- The operator exists on the build and is defined for these operand lanes (`C02`-`C14` say why): multiplication exists for 16- and 32-bit
lanes and, on the portable build, overflows `int` from `2 ^ 31`. -/
def Spec.Prog.Op2.Ok (c : Cfg) (o : Op2) (x y : ι → BitVec w) : Prop :=
  match o with
  | .mul => (w = 16 ∧ (c.null = true → ∀ j, (x j).toNat * (y j).toNat < 2 ^ 31)) ∨ w = 32
  | _ => True

/-- The function exists on the build for this element size. -/
def Spec.Prog.Fn2.Ok (c : Cfg) (r : Reg) (w : Nat) (f : Fn2) : Prop :=
  match f with
  | .min | .max => minmaxSupported c w r
  | .addSat | .subSat => w = 8 ∨ w = 16
  | .avg | .avgTrunc => w ≠ 64
  | .mulHi => w = 16

/-- Every operator of the expression exists on the build and is defined for the lanes it is given: the lanes are indexed by `ι`, and lane `j`
of the variable `x` is `E j x`. -/
def Spec.Prog.Exp.Ok {sg : Nat → Bool} (c : Cfg) (r : Reg) (E : ι → Nat → BitVec w) : {t : Ty} → Exp sg t → Prop
  | _, .var _ => True
  | _, .lit _ _ => True
  | _, .op2 o a b => a.Ok c r E ∧ b.Ok c r E ∧ o.Ok c (fun j => a.den (E j)) (fun j => b.den (E j))
  | _, .fn2 f a b => a.Ok c r E ∧ b.Ok c r E ∧ f.Ok c r w
  | _, .not a => a.Ok c r E
  | _, .neg a => a.Ok c r E ∧ (r = .r128 → negPortable c w → w ≤ 16 ∨ ∀ j, a.den (E j) ≠ BitVec.intMin w)
  | _, .abs a => a.Ok c r E ∧
      ((c.null = true ∧ 32 ≤ w) ∨ (w = 64 ∧ c.altivec = true ∧ c.vsx207 = false) → r = .r128 → ∀ j, a.den (E j) ≠ BitVec.intMin w)
  | _, .shl a k => a.Ok c r E ∧ k < w
  | _, .shr a k => a.Ok c r E ∧ k < w
  | _, .cast _ a => a.Ok c r E
  | _, .cmp R a b => a.Ok c r E ∧ b.Ok c r E ∧ cmpSupported c R w r
  | _, .opm _ a b => a.Ok c r E ∧ b.Ok c r E
  | _, .notm a => a.Ok c r E
  | _, .andm a m => a.Ok c r E ∧ m.Ok c r E
  | _, .andnotm a m => a.Ok c r E ∧ m.Ok c r E
  | _, .blend a b m => a.Ok c r E ∧ b.Ok c r E ∧ m.Ok c r E

theorem Exp.Ok.comp {sg : Nat → Bool} {c : Cfg} {r : Reg} {κ : Type} {E : ι → Nat → BitVec w} (f : κ → ι) :
    {t : Ty} → (e : Exp sg t) → e.Ok c r E → e.Ok c r (fun j => E (f j))
  | _, .var _, _ => trivial
  | _, .lit _ _, _ => trivial
  | _, .op2 o a b, ok => ⟨comp f a ok.1, comp f b ok.2.1, by
      have := ok.2.2
      cases o <;> first | trivial | exact this.imp (fun q => ⟨q.1, fun n i => q.2 n (f i)⟩) id⟩
  | _, .fn2 _ a b, ok => ⟨comp f a ok.1, comp f b ok.2.1, ok.2.2⟩
  | _, .not a, ok => comp f a ok
  | _, .neg a, ok => ⟨comp f a ok.1, fun h1 h2 => (ok.2 h1 h2).imp id fun q i => q (f i)⟩
  | _, .abs a, ok => ⟨comp f a ok.1, fun h1 h2 i => ok.2 h1 h2 (f i)⟩
  | _, .shl a _, ok => ⟨comp f a ok.1, ok.2⟩
  | _, .shr a _, ok => ⟨comp f a ok.1, ok.2⟩
  | _, .cast _ a, ok => comp f a ok
  | _, .cmp _ a b, ok => ⟨comp f a ok.1, comp f b ok.2.1, ok.2.2⟩
  | _, .opm _ a b, ok => ⟨comp f a ok.1, comp f b ok.2⟩
  | _, .notm a, ok => comp f a ok
  | _, .andm a m, ok => ⟨comp f a ok.1, comp f m ok.2⟩
  | _, .andnotm a m, ok => ⟨comp f a ok.1, comp f m ok.2⟩
  | _, .blend a b m, ok => ⟨comp f a ok.1, comp f b ok.2.1, comp f m ok.2.2⟩

/-- The registers holding given lanes. -/
def prep (c : Cfg) (r : Reg) : {t : Ty} → (Fin K → Fin L → t.Lane w) → PVal w L K t
  | .vec _, f => f
  | .mask, f => fun k => Mask.of c .int r (f k)

theorem prog_even (hw : IsW w) (r : Reg) : r.lanes w % 2 = 0 := by
  rcases hw with e | e | e | e <;> subst e <;> cases r <;> decide

section
variable {c : Cfg} (h : c.Ok) (hw : IsW w) {r : Reg} (hr : c.hasInt w r = true)
include h hw hr

theorem Prog.Op2.run_eq' (o : Prog.Op2) (s t : Bool) (hL : L = r.lanes w) (a b : Vec w L) (ok : o.Ok c a b) :
    o.run c r a b = some (fun i => o.lane w s t (a i) (b i)) := by
  have hm : ∀ x y : BitVec w, x * y = lane w (val s x * val t y) := fun x y => by
    unfold lane
    rw [BitVec.ofInt_mul]
    exact congrArg₂ _ (lane_val s x).symm (lane_val t y).symm
  cases o <;> unfold Prog.Op2.run <;> dsimp only [Prog.Op2.lane]
  · rw [i_iadd_eq h hw hr]
    congr 1; funext i
    unfold lane
    rw [BitVec.ofInt_add]
    exact congrArg₂ _ (lane_val s _).symm (lane_val t _).symm
  · rw [i_isub_eq h hw hr]
    congr 1; funext i
    unfold lane
    rw [Int.sub_eq_add_neg, BitVec.ofInt_add, BitVec.ofInt_neg, BitVec.sub_eq_add_neg]
    exact congrArg₂ (fun x y => x + -y) (lane_val s _).symm (lane_val t _).symm
  · rcases ok with ⟨e, hp⟩ | e <;> subst e
    · exact (i_mul_lo16_eq h hr a b hp).trans (congrArg some (funext fun i => hm _ _))
    · exact (i_mul_lo32_eq h hr hL a b).trans (congrArg some (funext fun i => hm _ _))
  · exact i_bit_and_eq h (k := .int) hw hr a b
  · exact i_bit_or_eq h (k := .int) hw hr a b
  · exact i_bit_xor_eq h (k := .int) hw hr a b
  · exact i_bit_andnot_eq h (k := .int) hw hr a b

theorem Fn2.run_eq (f : Prog.Fn2) (s : Bool) (hL : L = r.lanes w) (a b : Vec w L) (ok : f.Ok c r w) :
    f.run c r s a b = some (fun i => f.lane w s (a i) (b i)) := by
  have he : L % 2 = 0 := hL ▸ prog_even hw r
  cases f <;> unfold Fn2.run <;> dsimp only [Fn2.lane]
  · rw [i_min_eq h hw hr s ok]
    congr 1; funext i
    rw [← val_minLane, lane_val]
  · rw [i_max_eq h hw hr s ok]
    congr 1; funext i
    rw [← val_maxLane, lane_val]
  · rw [if_pos (show w = 8 ∨ w = 16 from ok)]; exact i_add_sat_eq h ok hr s a b
  · rw [if_pos (show w = 8 ∨ w = 16 from ok)]; exact i_sub_sat_eq h ok hr s a b
  · rw [if_neg (show w ≠ 64 from ok)]; exact i_avg_eq h (by have : w ≠ 64 := ok; unfold IsW at hw; omega) hr he s a b
  · rw [if_neg (show w ≠ 64 from ok)]; exact i_avg_trunc_eq h (by have : w ≠ 64 := ok; unfold IsW at hw; omega) hr he s a b
  · have e : w = 16 := ok
    subst e
    refine (i_mul_hi_eq h s hr hL a b).trans (congrArg some (funext fun i => ?_))
    have := high_lane s (Hw.mulLane s (2 * 16) (a i) (b i)) (by decide)
    rw [val_mulLane s (by decide) (by decide)] at this
    exact this

theorem OpM.run_eq (o : OpM) (f g : Fin L → Bool) :
    o.run c r (Mask.of c .int r f : Mask w L) (Mask.of c .int r g) = some (Mask.of c .int r (fun i => o.lane (f i) (g i))) := by
  cases o
  · exact i_bit_and_mm_eq h (k := .int) hw hr f g
  · exact i_bit_or_mm_eq h (k := .int) hw hr f g
  · exact i_bit_xor_mm_eq h (k := .int) hw hr f g
  · exact i_bit_andnot_mm_eq h (k := .int) hw hr f g

theorem Exp.run_eq {sg : Nat → Bool} (hL : L = r.lanes w) (jv : Fin K → Vec w L) (jm : Fin K → Mask w L) (env : Nat → Fin K → Vec w L) :
    {t : Ty} → (e : Exp sg t) → e.Ok c r (fun (j : Fin K × Fin L) x => env x j.1 j.2) →
    e.run c r jv jm env = some (prep c r fun k l => e.den fun x => env x k l)
  | _, .var x, _ => rfl
  | _, .lit s v, _ => by
    unfold Exp.run
    refine Arr.apply1_all (fun k => ?_) _
    rw [i_make_const_int_eq h hw hr hL _ (Or.inl rfl) (by rw [Nat.zero_add, hL]; exact Nat.mul_mod_right _ _)]
    rfl
  | _, .op2 (s := s) (t := t) o a b, ok => by
    unfold Exp.run
    rw [Exp.run_eq hL jv jm env a ok.1, Exp.run_eq hL jv jm env b ok.2.1]
    refine Arr.apply2_all (fun k => ?_) _
    refine Prog.Op2.run_eq' h hw hr o s t hL _ _ ?_
    have := ok.2.2
    cases o <;> first | trivial | exact this.imp (fun q => ⟨q.1, fun n i => q.2 n (k, i)⟩) id
  | _, .fn2 f a b, ok => by
    unfold Exp.run
    rw [Exp.run_eq hL jv jm env a ok.1, Exp.run_eq hL jv jm env b ok.2.1]
    exact Arr.apply2_all (fun k => Fn2.run_eq h hw hr f _ hL _ _ ok.2.2) _
  | _, .not a, ok => by
    unfold Exp.run
    rw [Exp.run_eq hL jv jm env a ok]
    exact Arr.apply1_all (fun k => i_bit_not_eq h (k := .int) hw hr _) _
  | _, .neg a, ok => by
    unfold Exp.run
    rw [Exp.run_eq hL jv jm env a ok.1]
    refine Arr.apply1_all (fun k => (i_ineg_eq h hw hr _ fun h1 h2 => (ok.2 h1 h2).imp id fun q i => q (k, i)).trans ?_) _
    congr 1; funext i
    show -_ = lane w (-_)
    unfold lane
    rw [BitVec.ofInt_neg]
    exact congrArg _ (lane_val true _).symm
  | _, .abs a, ok => by
    unfold Exp.run
    rw [Exp.run_eq hL jv jm env a ok.1]
    refine Arr.apply1_all (fun k => (i_iabs_eq h hw hr (fun _ => hL ▸ prog_even hw r) _ fun h1 h2 i => ok.2 h1 h2 (k, i)).trans ?_) _
    congr 1; funext i
    show absLane _ = lane w |_|
    unfold absLane
    rw [Int.natCast_natAbs]
  | _, .shl (s := s) a k, ok => by
    unfold Exp.run
    rw [Exp.run_eq hL jv jm env a ok.1]
    refine Arr.apply2S_all (fun j => (i_shift_l_eq h hw hr (hL ▸ prog_even hw r) _ ok.2).trans ?_) _
    congr 1; funext i
    exact shl_spec s _ k
  | _, .shr (s := s) a k, ok => by
    unfold Exp.run
    rw [Exp.run_eq hL jv jm env a ok.1]
    refine Arr.apply2S_all (fun j => (i_shift_r_eq h s hw hr (hL ▸ prog_even hw r) _ ok.2).trans ?_) _
    congr 1; funext i
    exact shr_spec s _ k
  | _, .cast _ a, ok => by
    unfold Exp.run
    exact Exp.run_eq hL jv jm env a ok
  | _, .cmp (s := s) R a b, ok => by
    unfold Exp.run
    rw [Exp.run_eq hL jv jm env a ok.1, Exp.run_eq hL jv jm env b ok.2.1]
    exact Arr.apply2_all (fun k => cmpInt_eq h hw hr R s ok.2.2 (fun _ => hL ▸ prog_even hw r) _ _) _
  | _, .opm o a b, ok => by
    unfold Exp.run
    rw [Exp.run_eq hL jv jm env a ok.1, Exp.run_eq hL jv jm env b ok.2]
    exact Arr.apply2_all (fun k => OpM.run_eq h hw hr o _ _) _
  | _, .notm a, ok => by
    unfold Exp.run
    rw [Exp.run_eq hL jv jm env a ok]
    exact Arr.apply1_all (fun k => i_bit_not_m_eq h (k := .int) hw hr _) _
  | _, .andm a m, ok => by
    unfold Exp.run
    rw [Exp.run_eq hL jv jm env a ok.1, Exp.run_eq hL jv jm env m ok.2]
    exact Arr.apply2_all (fun k => i_bit_and_vm_eq h (k := .int) hw hr _ _) _
  | _, .andnotm a m, ok => by
    unfold Exp.run
    rw [Exp.run_eq hL jv jm env a ok.1, Exp.run_eq hL jv jm env m ok.2]
    exact Arr.apply2_all (fun k => i_bit_andnot_vm_eq h (k := .int) hw hr _ _) _
  | _, .blend a b m, ok => by
    unfold Exp.run
    rw [Exp.run_eq hL jv jm env a ok.1, Exp.run_eq hL jv jm env b ok.2.1, Exp.run_eq hL jv jm env m ok.2.2]
    exact Arr.apply3_all (fun k => i_blend_vm_eq h (k := .int) hw hr _ _ _) _

/-! ## C54 -/

/-- **C54.** A vector expression, evaluated operator by operator on `K` registers, is in every lane the scalar computation on that lane of the
variables, whatever the result registers held before. -/
theorem C54_program {sg : Nat → Bool} {s : Bool} (e : Exp sg (.vec s)) (jv : Fin K → Vec w (r.lanes w)) (jm : Fin K → Mask w (r.lanes w))
    (env : Nat → Fin K → Vec w (r.lanes w)) (ok : e.Ok c r (fun (j : Fin K × Fin (r.lanes w)) x => env x j.1 j.2)) :
    ∃ v, e.run c r jv jm env = some v ∧ ∀ k l, v k l = e.den fun x => env x k l :=
  ⟨_, Exp.run_eq h hw hr rfl jv jm env e ok, fun _ _ => rfl⟩

/-- **C54.** A mask expression: a lane of the mask, seen as a vector, is all ones where the scalar condition holds and zero elsewhere. -/
theorem C54_condition {sg : Nat → Bool} (e : Exp sg .mask) (jv : Fin K → Vec w (r.lanes w)) (jm : Fin K → Mask w (r.lanes w))
    (env : Nat → Fin K → Vec w (r.lanes w)) (ok : e.Ok c r (fun (j : Fin K × Fin (r.lanes w)) x => env x j.1 j.2)) :
    ∃ v, e.run c r jv jm env = some v ∧ ∀ k l, (v k).unmask l = maskLane w (e.den fun x => env x k l) :=
  ⟨_, Exp.run_eq h hw hr rfl jv jm env e ok, fun k l => congrFun (Mask.unmask_of ..) l⟩

end

theorem evalR_eq {N : Nat} {c : Cfg} (h : c.Ok) (hw : IsW w) {r : Reg} (hr : c.hasInt w r = true) {K : Nat} (eN : N = K * r.lanes w)
    {sg : Nat → Bool} {s : Bool} (e : Exp sg (.vec s)) (jv : Nat → Vec w (r.lanes w))
    (jm : Nat → Mask w (r.lanes w)) (env : Nat → Vec w N) (ok : e.Ok c r (fun (j : Fin N) x => env x j)) :
    evalR c r jv jm e env = some (fun j => e.den fun x => env x j) := by
  unfold evalR
  have hL := lanes_pos hw r
  have eK : N / r.lanes w = K := by rw [eN, Nat.mul_div_cancel _ hL]
  have idx : ∀ (k : Fin (N / r.lanes w)) (l : Fin (r.lanes w)), k.val * r.lanes w + l.val < N := fun k l => by
    have h1 : k.val < K := eK ▸ k.isLt
    have h2 := l.isLt
    have := Nat.mul_le_mul_right (r.lanes w) (show k.val + 1 ≤ K from h1)
    rw [← eN, Nat.add_mul, Nat.one_mul] at this
    omega
  have ep : ∀ x (k : Fin (N / r.lanes w)) (l : Fin (r.lanes w)),
      Hw.part (r.lanes w) k.val (env x) l = env x ⟨k.val * r.lanes w + l.val, idx k l⟩ := fun x k l => Vec.at_lt _ (idx k l)
  rw [Exp.run_eq h hw hr rfl _ _ _ e]
  · show catM (r.lanes w) _ = _
    refine catM_regs hL eN fun j hj => ?_
    rw [dif_pos (eK.symm ▸ hj)]
    refine congrArg some (funext fun l => ?_)
    show e.den _ = Vec.at_ _ _
    rw [Vec.at_lt _ (idx ⟨j, eK.symm ▸ hj⟩ l)]
    exact congrArg (fun f => e.den f) (funext fun x => ep x ⟨j, eK.symm ▸ hj⟩ l)
  · have : (fun (j : Fin (N / r.lanes w) × Fin (r.lanes w)) x => Hw.part (r.lanes w) j.1.val (env x) j.2) =
        fun j x => env x ⟨j.1.val * r.lanes w + j.2.val, idx j.1 j.2⟩ := funext fun j => funext fun x => ep x j.1 j.2
    rw [this]
    exact Exp.Ok.comp (fun j : Fin (N / r.lanes w) × Fin (r.lanes w) => (⟨j.1.val * r.lanes w + j.2.val, idx j.1 j.2⟩ : Fin N)) e ok

section
variable {N : Nat} {c : Cfg} (h : c.Ok) (hw : IsW w) (hN : c.VLen w N)
include h hw hN

/-- **C54.** The same for vectors of any length `N` of the build. -/
theorem C54_eval {sg : Nat → Bool} {s : Bool} (e : Exp sg (.vec s)) (jv : Nat → Vec w ((c.regK .int w N).lanes w))
    (jm : Nat → Mask w ((c.regK .int w N).lanes w)) (env : Nat → Vec w N) (ok : e.Ok c (c.regK .int w N) (fun (j : Fin N) x => env x j)) :
    evalV c w N jv jm e env = some (fun j => e.den fun x => env x j) := by
  obtain ⟨hr, K, -, eN⟩ := KLen.regs h (k := .int) hw hN
  exact evalR_eq h hw hr eN e jv jm env ok

/-- **C54.** Two builds, whatever their registers, compute the same lanes from the same lanes. -/
theorem C54_portable {c' : Cfg} (h' : c'.Ok) (hN' : c'.VLen w N) {sg : Nat → Bool} {s : Bool} (e : Exp sg (.vec s))
    (jv : Nat → Vec w ((c.regK .int w N).lanes w)) (jm : Nat → Mask w ((c.regK .int w N).lanes w))
    (jv' : Nat → Vec w ((c'.regK .int w N).lanes w)) (jm' : Nat → Mask w ((c'.regK .int w N).lanes w)) (env : Nat → Vec w N)
    (ok : e.Ok c (c.regK .int w N) (fun (j : Fin N) x => env x j)) (ok' : e.Ok c' (c'.regK .int w N) (fun (j : Fin N) x => env x j)) :
    (evalV c w N jv jm e env).isSome ∧ evalV c w N jv jm e env = evalV c' w N jv' jm' e env := by
  rw [C54_eval h hw hN e jv jm env ok, C54_eval h' hw hN' e jv' jm' env ok']
  exact ⟨rfl, rfl⟩
end

/-- Expressions which need nothing of the build or the values: no 64-bit comparison, minimum or maximum, no multiplication of 16-bit lanes, no
negation or absolute value of lanes wider than 16 bits, shift counts below the element size. -/
def Spec.Prog.Exp.simple {sg : Nat → Bool} (w : Nat) : {t : Ty} → Exp sg t → Bool
  | _, .var _ => true
  | _, .lit _ _ => true
  | _, .op2 o a b => a.simple w && b.simple w && (match o with | .mul => w == 32 | _ => true)
  | _, .fn2 f a b => a.simple w && b.simple w && (match f with
      | .min | .max | .avg | .avgTrunc => w != 64 | .addSat | .subSat => w == 8 || w == 16 | .mulHi => w == 16)
  | _, .not a => a.simple w
  | _, .neg a => a.simple w && decide (w ≤ 16)
  | _, .abs a => a.simple w && decide (w ≤ 16)
  | _, .shl a k => a.simple w && decide (k < w)
  | _, .shr a k => a.simple w && decide (k < w)
  | _, .cast _ a => a.simple w
  | _, .cmp _ a b => a.simple w && b.simple w && w != 64
  | _, .opm _ a b => a.simple w && b.simple w
  | _, .notm a => a.simple w
  | _, .andm a m => a.simple w && m.simple w
  | _, .andnotm a m => a.simple w && m.simple w
  | _, .blend a b m => a.simple w && b.simple w && m.simple w

theorem Exp.simple_ok {sg : Nat → Bool} {c : Cfg} (hx : ¬ (c.xop = true ∧ c.avx512vl = true)) (r : Reg) (E : ι → Nat → BitVec w) :
    {t : Ty} → (e : Exp sg t) → e.simple w = true → e.Ok c r E
  | _, .var _, _ => trivial
  | _, .lit _ _, _ => trivial
  | _, .op2 o a b, hs => by
    simp only [Exp.simple, Bool.and_eq_true] at hs
    refine ⟨Exp.simple_ok hx r E a hs.1.1, Exp.simple_ok hx r E b hs.1.2, ?_⟩
    cases o <;> first | trivial | exact Or.inr (by simpa using hs.2)
  | _, .fn2 f a b, hs => by
    simp only [Exp.simple, Bool.and_eq_true] at hs
    refine ⟨Exp.simple_ok hx r E a hs.1.1, Exp.simple_ok hx r E b hs.1.2, ?_⟩
    cases f <;> simp only [Fn2.Ok, minmaxSupported] <;> simp at hs <;> grind
  | _, .not a, hs => Exp.simple_ok hx r E a hs
  | _, .neg a, hs => by
    simp only [Exp.simple, Bool.and_eq_true, decide_eq_true_eq] at hs
    exact ⟨Exp.simple_ok hx r E a hs.1, fun _ _ => Or.inl hs.2⟩
  | _, .abs a, hs => by
    simp only [Exp.simple, Bool.and_eq_true, decide_eq_true_eq] at hs
    exact ⟨Exp.simple_ok hx r E a hs.1, fun g => by omega⟩
  | _, .shl a _, hs => by
    simp only [Exp.simple, Bool.and_eq_true, decide_eq_true_eq] at hs
    exact ⟨Exp.simple_ok hx r E a hs.1, hs.2⟩
  | _, .shr a _, hs => by
    simp only [Exp.simple, Bool.and_eq_true, decide_eq_true_eq] at hs
    exact ⟨Exp.simple_ok hx r E a hs.1, hs.2⟩
  | _, .cast _ a, hs => Exp.simple_ok hx r E a hs
  | _, .cmp _ a b, hs => by
    simp only [Exp.simple, Bool.and_eq_true, bne_iff_ne] at hs
    exact ⟨Exp.simple_ok hx r E a hs.1.1, Exp.simple_ok hx r E b hs.1.2, hx, fun g => absurd g hs.2⟩
  | _, .opm _ a b, hs => by
    simp only [Exp.simple, Bool.and_eq_true] at hs
    exact ⟨Exp.simple_ok hx r E a hs.1, Exp.simple_ok hx r E b hs.2⟩
  | _, .notm a, hs => Exp.simple_ok hx r E a hs
  | _, .andm a m, hs => by
    simp only [Exp.simple, Bool.and_eq_true] at hs
    exact ⟨Exp.simple_ok hx r E a hs.1, Exp.simple_ok hx r E m hs.2⟩
  | _, .andnotm a m, hs => by
    simp only [Exp.simple, Bool.and_eq_true] at hs
    exact ⟨Exp.simple_ok hx r E a hs.1, Exp.simple_ok hx r E m hs.2⟩
  | _, .blend a b m, hs => by
    simp only [Exp.simple, Bool.and_eq_true] at hs
    exact ⟨Exp.simple_ok hx r E a hs.1.1, Exp.simple_ok hx r E b hs.1.2, Exp.simple_ok hx r E m hs.2⟩

/-- **C54.** An expression without build- or value-dependent operators means the scalar program on every build, for every input. -/
theorem C54_everywhere {N : Nat} {c : Cfg} (h : c.Ok) (hx : ¬ (c.xop = true ∧ c.avx512vl = true)) (hw : IsW w) (hN : c.VLen w N)
    {sg : Nat → Bool} {s : Bool} (e : Exp sg (.vec s)) (hs : e.simple w = true) (jv : Nat → Vec w ((c.regK .int w N).lanes w))
    (jm : Nat → Mask w ((c.regK .int w N).lanes w)) (env : Nat → Vec w N) :
    evalV c w N jv jm e env = some (fun j => e.den fun x => env x j) :=
  C54_eval h hw hN e jv jm env (Exp.simple_ok hx _ _ e hs)

/-! ### Examples -/

/-- `blend(x + y, (x ^ y) >> 3, x < y & ~(y == 7))`: every part of the language but the width-specific functions. -/
def progSample : Exp (fun _ => true) (.vec true) :=
  .blend (.op2 .add (.var 0) (.var 1)) (.shr (.op2 .xor (.var 0) (.var 1)) 3)
    (.opm .and (.cmp .lt (.var 0) (.var 1)) (.notm (.cmp .eq (.var 1) (.lit true 7))))

/-- It runs on a build with 128-bit registers (8 registers of 4 lanes) and on one with 512-bit registers (2 registers of 16). -/
example (env : Nat → Vec 32 32) (jv jm jv' jm') :
    evalV Cfg.sse2Only 32 32 jv jm progSample env = evalV Cfg.avx512All 32 32 jv' jm' progSample env :=
  (C54_portable Cfg.sse2Only_ok iw32 (Or.inr ⟨8, by decide, by decide +kernel⟩) Cfg.avx512All_ok (Or.inr ⟨2, by decide, by decide +kernel⟩) progSample jv jm jv' jm' env
    (Exp.simple_ok (by decide +kernel) _ _ _ (by decide +kernel)) (Exp.simple_ok (by decide +kernel) _ _ _ (by decide +kernel))).2

/-- One lane of it: `x = 3`, `y = 5` gives `8`; `x = 3`, `y = 7` gives `4 >> 3`. -/
example : progSample.den (w := 32) (fun x => if x = 0 then 3 else 5) = 8#32 ∧
    progSample.den (w := 32) (fun x => if x = 0 then 3 else 7) = 0#32 := by decide +kernel

/-- An operator which depends on the values: `abs` of 32-bit lanes on the portable build, defined where no lane is the minimum. -/
example (env : Nat → Vec 32 8) (he : ∀ j, env 0 j ≠ BitVec.intMin 32) (jv jm) :
    evalV Cfg.portable 32 8 jv jm (.abs (.var 0 : Exp (fun _ => true) (.vec true))) env =
      some (fun j => Spec.lane 32 |(env 0 j).toInt|) :=
  C54_eval Cfg.portable_ok iw32 (Or.inr ⟨2, by decide, by decide +kernel⟩) _ jv jm env ⟨trivial, fun _ _ => he⟩

end Simdpp
