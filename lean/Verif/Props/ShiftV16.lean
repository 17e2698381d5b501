import Verif.Props.ShiftV

/-! Shifts of 16-bit lanes by a vector of counts, emulated with a table lookup and a multiplication. -/

namespace Simdpp
open Spec Sh

variable {w v n : Nat}

theorem ext_bytes {x y : BitVec 16} (h : ∀ b, b < 2 → x.extractLsb' (b * 8) 8 = y.extractLsb' (b * 8) 8) : x = y := by
  apply BitVec.eq_of_getLsbD_eq
  intro j hj
  have e := congrArg (fun z => BitVec.getLsbD z (j % 8)) (h (j / 8) (by omega))
  simp only [BitVec.getLsbD_extractLsb', show j % 8 < 8 by omega, decide_true, Bool.true_and,
    show j / 8 * 8 + j % 8 = j by omega] at e
  exact e

section
variable {c : Cfg} (h : c.Ok)
include h

theorem table16 {r : Reg} (hr : c.hasInt 8 r = true) (hs : c.sse2 = true → c.ssse3 = true) (hn : n = r.lanes 16) {l : List Nat}
    (hl : l.length = 16) (q : Vec 16 n) (T : Vec 16 n) (hq : ∀ i b, b < 2 → ((q i).extractLsb' (b * 8) 8).toNat < 16)
    (hT : ∀ i b, b < 2 → BitVec.ofNat 8 (l.getD (((q i).extractLsb' (b * 8) 8).toNat) 0) = (T i).extractLsb' (b * 8) 8) :
    ∃ P, i_permute_bytes16 c r (cyc l) (q.recast 8 (2 * n)) = some P ∧ P.recast 16 n = T := by
  have hq' : ∀ t, t < 2 * n → (q.recast 8 (2 * n)).at_ t = ((q.at_ (t / 2)).extractLsb' (t % 2 * 8) 8) := fun t ht =>
    recast_at (by decide) (q := 2) (by decide) rfl (by omega) _ _
  have hm : ∀ i, ((q.recast 8 (2 * n)) i).toNat < 16 := fun i => by
    have hi := i.isLt
    rw [← Vec.at_fin (q.recast 8 (2 * n)) i, hq' _ i.isLt, Vec.at_lt _ (show i.val / 2 < n by omega)]
    exact hq _ _ (by omega)
  refine ⟨_, permTable h hr hs (by subst hn; cases r <;> rfl) (Or.inr hl) _ hm, ?_⟩
  refine funext fun i => ext_bytes fun b hb => ?_
  have hi := i.isLt
  have hlt : 2 * i.val + b < 2 * n := by omega
  rw [← hT i b hb]
  have e := recast_at (v := 8) (w := 16) (n := n) (m := 2 * n) (q := 2) (by decide) (by decide) rfl (by omega)
    (Vec.recast (w := 8) (n := 2 * n) 16 n (fun i => BitVec.ofNat 8 (l.getD (((q.recast 8 (2 * n)) i).toNat % l.length) 0))) (2 * i.val + b)
  rw [show (2 * i.val + b) / 2 = i.val by omega, show (2 * i.val + b) % 2 = b by omega,
    Vec.recast_recast _ (by decide) (by omega), Vec.at_lt _ hlt, Vec.at_fin] at e
  rw [← e]
  have hm' := hm ⟨_, hlt⟩
  rw [hl, Nat.mod_eq_of_lt hm']
  have e3 := hq' _ hlt
  rw [Vec.at_lt _ hlt, show (2 * i.val + b) / 2 = i.val by omega, show (2 * i.val + b) % 2 = b by omega, Vec.at_fin] at e3
  rw [e3]

theorem emul_shift_l_v16_eq {r : Reg} (hr : c.hasInt 16 r = true) (hs : c.sse2 = true → c.ssse3 = true) (h0 : c.null = false)
    (hn : n = r.lanes 16) (a k : Vec 16 n) (hk : ∀ i, (k i).toNat < 16) :
    emul_shift_l_v16_using_mul c r a k = some (fun i => a i <<< (k i).toNat) := by
  have hr8 : c.hasInt 8 r = true := by cases r <;> exact hr
  have hn2 : n % 2 = 0 := by subst hn; cases r <;> decide
  have key : ∀ x : Fin 16, ∀ b : Fin 2,
      (((BitVec.ofNat 16 x ||| BitVec.ofNat 16 x <<< 8) ^^^ 0x0800).extractLsb' (b.val * 8) 8).toNat < 16 ∧
      BitVec.ofNat 8 (([0x01, 0x02, 0x04, 0x08, 0x10, 0x20, 0x40, 0x80, 0, 0, 0, 0, 0, 0, 0, 0] : List Nat).getD
        (((BitVec.ofNat 16 x ||| BitVec.ofNat 16 x <<< 8) ^^^ 0x0800).extractLsb' (b.val * 8) 8).toNat 0) =
        (BitVec.twoPow 16 x).extractLsb' (b.val * 8) 8 := by decide +kernel
  have key' := fun i b (hb : b < 2) => key ⟨(k i).toNat, hk i⟩ ⟨b, hb⟩
  simp only [BitVec.ofNat_toNat, BitVec.setWidth_eq] at key'
  obtain ⟨P, e1, e2⟩ := table16 h hr8 hs hn (l := [0x01, 0x02, 0x04, 0x08, 0x10, 0x20, 0x40, 0x80, 0, 0, 0, 0, 0, 0, 0, 0]) rfl
    (fun i => (k i ||| k i <<< 8) ^^^ 0x0800) (fun i => BitVec.twoPow 16 (k i).toNat)
    (fun i b hb => (key' i b hb).1) (fun i b hb => (key' i b hb).2)
  unfold emul_shift_l_v16_using_mul
  refine (bind_of (shift_l_imm_eq h iw16 hr hn2 k (by decide)) _).trans ?_
  refine (bind_of (i_bit_or_eq h (k := .int) iw16 hr _ _) _).trans ?_
  refine (bind_of (i_bit_xor_eq h (k := .int) iw16 hr _ _) _).trans ?_
  refine (bind_of e1 _).trans ?_
  rw [e2, i_mul_lo16_eq h hr _ _ (by rw [h0]; intro g; cases g)]
  refine congrArg some (funext fun i => ?_)
  exact BitVec.mul_twoPow_eq_shiftLeft _ _

theorem emul_shift_r_u16_eq {r : Reg} (hr : c.hasInt 16 r = true) (hs : c.sse2 = true → c.ssse3 = true)
    (hn : n = r.lanes 16) (a k : Vec 16 n) (hk : ∀ i, (k i).toNat < 16) :
    emul_shift_r_u16_using_mul c r a k = some (fun i => bshr false (a i) (k i).toNat) := by
  have hr8 : c.hasInt 8 r = true := by cases r <;> exact hr
  have hn2 : n % 2 = 0 := by subst hn; cases r <;> decide
  have key : ∀ x : Fin 16, ∀ b : Fin 2,
      (((BitVec.ofNat 16 x ||| BitVec.ofNat 16 x <<< 8) ^^^ 0x0008).extractLsb' (b.val * 8) 8).toNat < 16 ∧
      BitVec.ofNat 8 (([0x00, 0x80, 0x40, 0x20, 0x10, 0x08, 0x04, 0x02, 0x01, 0, 0, 0, 0, 0, 0, 0] : List Nat).getD
        (((BitVec.ofNat 16 x ||| BitVec.ofNat 16 x <<< 8) ^^^ 0x0008).extractLsb' (b.val * 8) 8).toNat 0) =
        (if x.val = 0 then 1 else BitVec.twoPow 16 (16 - x)).extractLsb' (b.val * 8) 8 := by decide +kernel
  have key' := fun i b (hb : b < 2) => key ⟨(k i).toNat, hk i⟩ ⟨b, hb⟩
  simp only [BitVec.ofNat_toNat, BitVec.setWidth_eq] at key'
  obtain ⟨P, e1, e2⟩ := table16 h hr8 hs hn (l := [0x00, 0x80, 0x40, 0x20, 0x10, 0x08, 0x04, 0x02, 0x01, 0, 0, 0, 0, 0, 0, 0]) rfl
    (fun i => (k i ||| k i <<< 8) ^^^ 0x0008) (fun i => if (k i).toNat = 0 then 1 else BitVec.twoPow 16 (16 - (k i).toNat))
    (fun i b hb => (key' i b hb).1) (fun i b hb => (key' i b hb).2)
  unfold emul_shift_r_u16_using_mul
  refine (bind_of (i_cmp_eq_eq h iw16 hr (by simp) (by simp) k _) _).trans ?_
  refine (bind_of (i_cmp_gt_eq h iw16 hr false (by simp) (by simp) k _) _).trans ?_
  refine (bind_of (shift_l_imm_eq h iw16 hr hn2 k (by decide)) _).trans ?_
  refine (bind_of (i_bit_or_eq h (k := .int) iw16 hr _ _) _).trans ?_
  refine (bind_of (i_bit_xor_eq h (k := .int) iw16 hr _ _) _).trans ?_
  refine (bind_of e1 _).trans ?_
  rw [e2]
  refine (bind_of (i_mul_hi_eq h false hr hn _ _) _).trans ?_
  refine (bind_of (i_blend_vm_eq h (k := .int) iw16 hr _ _ _) _).trans ?_
  refine (i_bit_andnot_vm_eq h (k := .int) iw16 hr _ _).trans ?_
  refine congrArg some (funext fun i => ?_)
  have hi := hk i
  have g : ¬ val false (Vec.splat (15 : BitVec 16) i) < val false (k i) := by
    simp only [val, Vec.splat, Bool.false_eq_true, if_false]
    show ¬ ((15 : Nat) : Int) < _
    omega
  simp only [g, decide_false, Bool.false_eq_true, if_false]
  by_cases g2 : (k i).toNat = 0
  · have : k i = Vec.splat (0 : BitVec 16) i := BitVec.eq_of_toNat_eq (by simp [Vec.splat, g2])
    rw [this]
    simp [Vec.splat, bshr]
  · have : ¬ k i = Vec.splat (0 : BitVec 16) i := fun e => g2 (by rw [e]; rfl)
    simp only [this, decide_false, Bool.false_eq_true, if_false, Hw.mulhi, g2]
    rw [mulhi_pow false _ (by omega) (by intro g; cases g)]
    congr 1; omega

end
end Simdpp
