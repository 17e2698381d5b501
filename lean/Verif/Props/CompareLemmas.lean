import Verif.Model.Compare
import Verif.Props.MaskLemmas
import Verif.Props.Shift

/-! Evaluation of the comparisons on every configuration. -/

namespace Simdpp
open Spec

variable {w n : Nat}

/-- proves a (negated) representation fact from the configuration hypotheses in context -/
macro "mask_repr" h:ident : tactic => `(tactic|
  (have := ($h).null; have := ($h).sse3; have := ($h).ssse3; have := ($h).sse41
   have := ($h).avx; have := ($h).avx2
   have := ($h).xop; have := ($h).avx512f
   have := ($h).avx512vl; have := ($h).neonFltSp; have := ($h).vsx206; have := ($h).vsx207
   have := ($h).neon64; have := ($h).excl
   simp_all [Cfg.maskBits, Cfg.neonNoFltSp, Cfg.neon32, Cfg.neon64] <;> grind))

theorem retB_eq {c : Cfg} {k : Kind} {r : Reg} {f g : Fin n → Bool} (hb : c.maskBits k w r = true)
    (e : f = g) : (retB c k r f : Option (Mask w n)) = some (Mask.of c k r g) := by
  unfold retB Mask.of; rw [if_pos hb, if_pos hb, e]

theorem retV_eq {c : Cfg} {k : Kind} {r : Reg} {v : Vec w n} {g : Fin n → Bool}
    (hb : ¬ c.maskBits k w r = true) (e : v = fun i => maskLane w (g i)) :
    retV c k r v = some (Mask.of c k r g) := by
  unfold retV Mask.of; rw [if_neg hb, if_neg hb, e]

theorem sel_eq {f g : Fin n → Bool} (e : f = g) : (Hw.sel f : Vec w n) = fun i => maskLane w (g i) := by
  subst e; rfl

/-! Lane predicates against the specification. -/

theorem eqP_eq (a b : Vec w n) : Hw.eqP a b = fun i => decide (a i = b i) := rfl

theorem ltP_eq (s : Bool) (a b : Vec w n) : Hw.ltP s a b = fun i => decide (val s (a i) < val s (b i)) := by
  funext i; unfold Hw.ltP; cases s <;> simp [val, BitVec.slt, BitVec.ult]
theorem leP_eq (s : Bool) (a b : Vec w n) : Hw.leP s a b = fun i => decide (val s (a i) ≤ val s (b i)) := by
  funext i; unfold Hw.leP; cases s <;> simp [val, BitVec.sle, BitVec.ule]
theorem gtP_eq (s : Bool) (a b : Vec w n) : Hw.gtP s a b = fun i => decide (val s (b i) < val s (a i)) :=
  ltP_eq s b a
theorem geP_eq (s : Bool) (a b : Vec w n) : Hw.geP s a b = fun i => decide (val s (b i) ≤ val s (a i)) :=
  leP_eq s b a
theorem nleP_eq (s : Bool) (a b : Vec w n) : Hw.nleP s a b = fun i => decide (val s (b i) < val s (a i)) := by
  funext i; unfold Hw.nleP; rw [leP_eq]; simp only [← decide_not, Int.not_le]
theorem nltP_eq (s : Bool) (a b : Vec w n) : Hw.nltP s a b = fun i => decide (val s (b i) ≤ val s (a i)) := by
  funext i; unfold Hw.nltP; rw [ltP_eq]; simp only [← decide_not, Int.not_lt]

/-- Flipping the sign bit maps the unsigned order to the signed order. -/
theorem val_bias (hw : 0 < w) (x : BitVec w) :
    val true (x ^^^ BitVec.ofNat w (2 ^ (w - 1))) = val false x - 2 ^ (w - 1) := by
  have hp : (2:Nat) ^ w = 2 * 2 ^ (w - 1) := by
    rw [← Nat.pow_succ']; congr 1; omega
  have hq : 0 < 2 ^ (w - 1) := Nat.two_pow_pos _
  have hx := x.isLt
  have e : (x ^^^ BitVec.ofNat w (2 ^ (w - 1))).toNat = x.toNat ^^^ 2 ^ (w - 1) := by
    rw [BitVec.toNat_xor, BitVec.toNat_ofNat, Nat.mod_eq_of_lt (by omega)]
  have h1 : (x.toNat ^^^ 2 ^ (w - 1)) / 2 ^ (w - 1) = (x.toNat / 2 ^ (w - 1)) ^^^ 1 := by
    rw [Nat.xor_div_two_pow, Nat.div_self hq]
  have h2 : (x.toNat ^^^ 2 ^ (w - 1)) % 2 ^ (w - 1) = x.toNat % 2 ^ (w - 1) := by
    rw [Nat.xor_mod_two_pow, Nat.mod_self, Nat.xor_zero]
  have h3 := Nat.div_add_mod (x.toNat ^^^ 2 ^ (w - 1)) (2 ^ (w - 1))
  have h4 := Nat.div_add_mod x.toNat (2 ^ (w - 1))
  have h5 : x.toNat / 2 ^ (w - 1) < 2 := Nat.div_lt_of_lt_mul (by omega)
  rw [h1, h2] at h3
  simp only [val, if_true, Bool.false_eq_true, if_false]
  rw [BitVec.toInt_eq_toNat_cond, e]
  have hc : ((2:Int) ^ (w - 1)) = ((2 ^ (w - 1) : Nat) : Int) := by push_cast; rfl
  have h6 : x.toNat % 2 ^ (w - 1) < 2 ^ (w - 1) := Nat.mod_lt _ hq
  have h7 : x.toNat / 2 ^ (w - 1) = 0 ∨ x.toNat / 2 ^ (w - 1) = 1 :=
    Nat.le_one_iff_eq_zero_or_eq_one.mp (Nat.lt_succ_iff.mp h5)
  rw [hc]
  rcases h7 with h7 | h7 <;> rw [h7] at h3 h4
  · have : (0 ^^^ 1 : Nat) = 1 := rfl
    rw [this] at h3
    simp only [Nat.mul_one, Nat.mul_zero, Nat.zero_add] at h3 h4
    rw [if_neg (by omega), hp]; omega
  · have : (1 ^^^ 1 : Nat) = 0 := rfl
    rw [this] at h3
    simp only [Nat.mul_one, Nat.mul_zero, Nat.zero_add] at h3 h4
    rw [if_pos (by omega)]; omega

section
variable {c : Cfg} (h : c.Ok) (hw : IsW w) {r : Reg} (hr : c.hasInt w r = true)
include h hw hr

theorem biased_eq (a b : Vec w n) : biased c r a b = some
    (fun i => a i ^^^ BitVec.ofNat w (2 ^ (w - 1)), fun i => b i ^^^ BitVec.ofNat w (2 ^ (w - 1))) := by
  unfold biased
  simp only [i_bit_xor_eq h (k := .int) hw hr, Option.bind_eq_bind, Option.bind_some, Vec.splat_apply]

omit h hr in
theorem gtP_biased (a b : Vec w n) :
    Hw.gtP true (fun i => a i ^^^ BitVec.ofNat w (2 ^ (w - 1))) (fun i => b i ^^^ BitVec.ofNat w (2 ^ (w - 1)))
      = fun i => decide (val false (b i) < val false (a i)) := by
  rw [gtP_eq]; funext i; simp only [val_bias (isW_pos hw)]
  congr 1; apply propext; constructor <;> intro <;> omega

omit h hr in
theorem ltP_biased (a b : Vec w n) :
    Hw.ltP true (fun i => a i ^^^ BitVec.ofNat w (2 ^ (w - 1))) (fun i => b i ^^^ BitVec.ofNat w (2 ^ (w - 1)))
      = fun i => decide (val false (a i) < val false (b i)) := gtP_biased hw b a

theorem i_cmp_gt_eq (s : Bool) (hi : w = 64 → r = .r128 → c.sse2 = true → (c.avx2 = true ∨ c.xop = true))
    (h64 : w = 64 → c.neon32 = false) (a b : Vec w n) :
    i_cmp_gt c s r a b = some (Mask.of c .int r (fun i => decide (val s (b i) < val s (a i)))) := by
  have hg := gtP_eq s a b
  have hn := Null.cmp_gt_eq s hw a b
  unfold i_cmp_gt
  rw [biased_eq h hw hr]
  cases r <;> dsimp only [Option.bind_eq_bind, Option.bind_some] <;> split_ifs <;>
    first
    | (refine retB_eq ?_ ?_ <;> first | assumption | exact Mask.of_vl (by assumption) | rfl | exact nleP_eq s a b | mask_repr h)
    | (refine retV_eq ?_ (sel_eq ?_) <;> first | assumption | (subst s; first | exact hg | exact gtP_biased hw a b) | (simp only [Bool.not_eq_true] at *; subst s; first | exact hg | exact gtP_biased hw a b) | mask_repr h)
    | cfg_absurd h

theorem i_cmp_lt_eq (s : Bool) (hi : w = 64 → r = .r128 → c.sse2 = true → (c.avx2 = true ∨ c.xop = true))
    (h64 : w = 64 → c.neon32 = false) (hx : w = 64 → r = .r128 → ¬ (c.xop = true ∧ c.avx512vl = true))
    (a b : Vec w n) :
    i_cmp_lt c s r a b = some (Mask.of c .int r (fun i => decide (val s (a i) < val s (b i)))) := by
  have hg := ltP_eq s a b
  have hn := Null.cmp_lt_eq s hw a b
  unfold i_cmp_lt
  rw [biased_eq h hw hr]
  cases r <;> dsimp only [Option.bind_eq_bind, Option.bind_some] <;> split_ifs <;>
    first
    | (refine retB_eq ?_ ?_ <;> first | assumption | exact Mask.of_vl (by assumption) | rfl | mask_repr h)
    | (refine retV_eq ?_ (sel_eq ?_) <;> first | assumption | (subst s; first | exact hg | exact ltP_biased hw a b) | (simp only [Bool.not_eq_true] at *; subst s; first | exact hg | exact ltP_biased hw a b) | mask_repr h)
    | cfg_absurd h

omit h hw hr in
theorem not_lt_fun (s : Bool) (a b : Vec w n) : (fun i => !decide (val s (a i) < val s (b i))) =
    fun i => decide (val s (b i) ≤ val s (a i)) := by
  funext i; rw [← decide_not]; simp only [Int.not_lt]

theorem i_cmp_ge_eq (s : Bool) (hi : w = 64 → r = .r128 → c.sse2 = true → (c.avx2 = true ∨ c.xop = true))
    (h64 : w = 64 → c.neon32 = false) (a b : Vec w n) :
    i_cmp_ge c s r a b = some (Mask.of c .int r (fun i => decide (val s (b i) ≤ val s (a i)))) := by
  have hg := geP_eq s a b
  have hn := Null.cmp_ge_eq s hw a b
  have key : ¬ (c.xop = true ∧ c.avx512vl = true) →
    (do i_bit_not_m c .int r (← i_cmp_lt c s r a b)) = some (Mask.of c .int r (fun i => decide (val s (b i) ≤ val s (a i)))) := by
    intro hx
    rw [i_cmp_lt_eq h hw hr s hi h64 (fun _ _ => hx), Option.bind_eq_bind, Option.bind_some,
      i_bit_not_m_eq h (k := .int) hw hr, not_lt_fun]
  unfold i_cmp_ge
  cases r <;> dsimp only <;> split_ifs <;>
    first
    | (refine retB_eq ?_ ?_ <;> first | assumption | exact Mask.of_vl (by assumption) | rfl | exact nltP_eq s a b | mask_repr h)
    | (refine retV_eq ?_ (sel_eq ?_) <;> first | assumption | mask_repr h)
    | (exact key (by simp_all))
    | cfg_absurd h

theorem i_cmp_le_eq (s : Bool) (hi : w = 64 → r = .r128 → c.sse2 = true → (c.avx2 = true ∨ c.xop = true))
    (h64 : w = 64 → c.neon32 = false) (a b : Vec w n) :
    i_cmp_le c s r a b = some (Mask.of c .int r (fun i => decide (val s (a i) ≤ val s (b i)))) := by
  have hg := leP_eq s a b
  have hn := Null.cmp_le_eq s hw a b
  have key : 
    (do i_bit_not_m c .int r (← i_cmp_gt c s r a b)) = some (Mask.of c .int r (fun i => decide (val s (a i) ≤ val s (b i)))) := by
    rw [i_cmp_gt_eq h hw hr s hi h64, Option.bind_eq_bind, Option.bind_some,
      i_bit_not_m_eq h (k := .int) hw hr, not_lt_fun]
  unfold i_cmp_le
  cases r <;> dsimp only <;> split_ifs <;>
    first
    | (refine retB_eq ?_ ?_ <;> first | assumption | exact Mask.of_vl (by assumption) | rfl | mask_repr h)
    | (refine retV_eq ?_ (sel_eq ?_) <;> first | assumption | mask_repr h)
    | (exact key)
    | cfg_absurd h

theorem i_cmp_eq_narrow_eq (h64 : w ≠ 64) (a b : Vec w n) :
    i_cmp_eq_narrow c r a b = some (Mask.of c .int r (fun i => decide (a i = b i))) := by
  have hn := Null.cmp_eq_eq false hw a b
  unfold i_cmp_eq_narrow
  cases r <;> dsimp only <;> split_ifs <;>
    first
    | (refine retB_eq ?_ ?_ <;> first | assumption | exact Mask.of_vl (by assumption) | rfl | mask_repr h)
    | (refine retV_eq ?_ (sel_eq ?_) <;> first | rfl | assumption | mask_repr h)
    | cfg_absurd h

end

theorem Vec.halves (a : Vec 64 n) (i : Fin n) :
    a i = ((a.recast 32 (2 * n)).at_ (2 * i.val + 1) ++ (a.recast 32 (2 * n)).at_ (2 * i.val) : BitVec (32 + 32)) := by
  rw [← Vec.recast_up_eq rfl, Vec.recast_recast _ (by omega) (by omega)]

theorem append_inj32 (x y x' y' : BitVec 32) : (x ++ y : BitVec (32 + 32)) = x' ++ y' ↔ x = x' ∧ y = y' := by
  constructor
  · intro e
    have hb : ∀ k, (x ++ y : BitVec (32 + 32)).getLsbD k = (x' ++ y' : BitVec (32 + 32)).getLsbD k := by
      intro k; rw [e]
    simp only [BitVec.getLsbD_append] at hb
    constructor
    · apply BitVec.eq_of_getLsbD_eq; intro k hk
      have := hb (k + 32); simpa using this
    · apply BitVec.eq_of_getLsbD_eq; intro k hk
      have := hb k; simpa [hk] using this
  · rintro ⟨rfl, rfl⟩; rfl

theorem eq_iff_halves (a b : Vec 64 n) (i : Fin n) : a i = b i ↔
    (a.recast 32 (2 * n)).at_ (2 * i.val + 1) = (b.recast 32 (2 * n)).at_ (2 * i.val + 1) ∧
    (a.recast 32 (2 * n)).at_ (2 * i.val) = (b.recast 32 (2 * n)).at_ (2 * i.val) := by
  rw [Vec.halves a, Vec.halves b]; exact append_inj32 _ _ _ _

theorem swap_append (x y : BitVec 32) :
    ((x ++ y : BitVec (32 + 32)) <<< 32) ||| ((x ++ y : BitVec (32 + 32)) >>> 32) = y ++ x := by
  apply BitVec.eq_of_getLsbD_eq
  intro j hj
  simp only [BitVec.getLsbD_or, BitVec.getLsbD_shiftLeft, BitVec.getLsbD_ushiftRight,
    BitVec.getLsbD_append]
  by_cases h1 : j < 32
  · have h2 : ¬ (32 + j < 32) := by omega
    simp [h1]
  · have h2 : j - 32 < 32 := by omega
    have h3 : ¬ (32 + j < 32) := by omega
    simp only [h1, h2, h3, hj, decide_true, decide_false, if_true, if_false]
    simp [BitVec.getLsbD_of_ge x j (by omega)]

theorem maskLane_append (p : Bool) : (maskLane 32 p ++ maskLane 32 p : BitVec (32 + 32)) = maskLane 64 p := by
  cases p <;> decide

theorem append_and (x y x' y' : BitVec 32) :
    (x ++ y : BitVec (32 + 32)) &&& (x' ++ y') = (x &&& x') ++ (y &&& y') := by
  apply BitVec.eq_of_getLsbD_eq
  intro j hj
  simp only [BitVec.getLsbD_and, BitVec.getLsbD_append]; split_ifs <;> rfl
theorem append_or (x y x' y' : BitVec 32) :
    (x ++ y : BitVec (32 + 32)) ||| (x' ++ y') = (x ||| x') ++ (y ||| y') := by
  apply BitVec.eq_of_getLsbD_eq
  intro j hj
  simp only [BitVec.getLsbD_or, BitVec.getLsbD_append]; split_ifs <;> rfl

section
variable {c : Cfg} (h : c.Ok)
include h

theorem isW64 : IsW 64 := Or.inr (Or.inr (Or.inr rfl))
theorem isW32 : IsW 32 := Or.inr (Or.inr (Or.inl rfl))

theorem swapHalves_eq (hn : n % 2 = 0) (v : Vec 64 n) :
    swapHalves c v = some (fun i => (v i <<< 32) ||| (v i >>> 32)) := by
  unfold swapHalves
  rw [shift_l_imm_eq h (isW64 h) rfl hn _ (by omega), shift_r_imm_eq h false (isW64 h) rfl hn _ (by omega)]
  simp only [Option.bind_eq_bind, Option.bind_some]
  rw [i_bit_or_eq h (k := .int) (isW64 h) rfl]
  rfl

/-- The 32-bit comparison result seen as 64-bit lanes. -/
theorem eq32_as64 (a b : Vec 64 n) (m : Mask 32 (2 * n))
    (hm : i_cmp_eq_narrow c .r128 (a.recast 32 (2 * n)) (b.recast 32 (2 * n)) = some m) :
    m.toVec.recast 64 n = fun i =>
      (maskLane 32 (decide ((a.recast 32 (2 * n)).at_ (2 * i.val + 1) = (b.recast 32 (2 * n)).at_ (2 * i.val + 1))) ++
       maskLane 32 (decide ((a.recast 32 (2 * n)).at_ (2 * i.val) = (b.recast 32 (2 * n)).at_ (2 * i.val))) : BitVec (32 + 32)) := by
  rw [i_cmp_eq_narrow_eq h (isW32 h) rfl (by omega)] at hm
  cases hm
  funext i
  show Vec.recast (32 + 32) n (Mask.of c .int .r128 _ : Mask 32 (2 * n)).unmask i = _
  rw [Mask.unmask_of, Vec.recast_up_eq rfl]
  have h1 : 2 * i.val + 1 < 2 * n := by omega
  have h2 : 2 * i.val < 2 * n := by omega
  simp only [Vec.at_lt _ h1, Vec.at_lt _ h2]

theorem i_cmp_eq64_eq {r : Reg} (hr : c.hasInt 64 r = true) (hx : r = .r128 → ¬ (c.xop = true ∧ c.avx512vl = true)) (hn : n % 2 = 0)
    (a b : Vec 64 n) :
    i_cmp_eq64 c r a b = some (Mask.of c .int r (fun i => decide (a i = b i))) := by
  have hnul := Null.cmp_eq_eq false (isW64 h) a b
  obtain ⟨m, hm⟩ : ∃ m, i_cmp_eq_narrow c .r128 (a.recast 32 (2 * n)) (b.recast 32 (2 * n)) = some m :=
    ⟨_, i_cmp_eq_narrow_eq h (isW32 h) rfl (by omega) _ _⟩
  have hv := eq32_as64 h a b m hm
  unfold i_cmp_eq64
  cases r <;> dsimp only <;> split_ifs with h1 h2 h3 h4 h5 h6 h7 h8 <;>
    first
    | (refine retB_eq ?_ ?_ <;> first | assumption | exact Mask.of_vl (by assumption) | rfl | mask_repr h)
    | (refine retV_eq ?_ (sel_eq ?_) <;> first | rfl | assumption | mask_repr h)
    | skip
  · rw [hm, Option.bind_eq_bind, Option.bind_some]
    simp only [hv, Option.bind_eq_bind]
    rw [swapHalves_eq h hn]
    simp only [Option.bind_some]
    rw [i_bit_and_eq h (k := .int) (isW64 h) rfl]
    simp only [Option.bind_some]
    refine retV_eq ?_ ?_
    · mask_repr h
    · funext i
      rw [swap_append, append_and, maskLane_and, maskLane_and, Bool.and_comm, maskLane_append]
      congr 1
      rw [← Bool.decide_and]; congr 1; apply propext
      rw [eq_iff_halves]; exact and_comm
  · rw [hm, Option.bind_eq_bind, Option.bind_some]
    rw [i_bit_and_eq h (k := .int) (isW32 h) rfl]
    simp only [Option.bind_eq_bind, Option.bind_some]
    refine retV_eq ?_ ?_
    · mask_repr h
    · rw [i_cmp_eq_narrow_eq h (isW32 h) rfl (by omega)] at hm
      cases hm
      funext i
      show Vec.recast (32 + 32) n _ i = _
      unfold Mask.toVec
      rw [Mask.unmask_of, Vec.recast_up_eq rfl]
      have h1 : 2 * i.val + 1 < 2 * n := by omega
      have h2 : 2 * i.val < 2 * n := by omega
      have e1 : (2 * i.val + 1) % 2 ≠ 0 := by omega
      have e2 : (2 * i.val) % 2 = 0 := by omega
      simp only [Vec.at_lt _ h1, Vec.at_lt _ h2, Hw.trn1, Hw.trn2, e1, e2, if_true, if_false,
        Nat.add_sub_cancel, maskLane_and]
      rw [Bool.and_comm, maskLane_append]
      congr 1
      rw [← Bool.decide_and]; congr 1; apply propext
      rw [eq_iff_halves, Vec.at_lt _ h1, Vec.at_lt _ h1, Vec.at_lt _ h2, Vec.at_lt _ h2]
  all_goals cfg_absurd h

theorem i_cmp_eq_eq (hw : IsW w) {r : Reg} (hr : c.hasInt w r = true)
    (hx : w = 64 → r = .r128 → ¬ (c.xop = true ∧ c.avx512vl = true)) (hn : w = 64 → n % 2 = 0)
    (a b : Vec w n) :
    i_cmp_eq c r a b = some (Mask.of c .int r (fun i => decide (a i = b i))) := by
  unfold i_cmp_eq
  split_ifs with h64
  · subst h64; exact i_cmp_eq64_eq h hr (hx rfl) (hn rfl) a b
  · exact i_cmp_eq_narrow_eq h hw hr h64 a b

omit h in
theorem not_eq_fun (a b : Vec w n) : (fun i => !decide (a i = b i)) = fun i => decide (a i ≠ b i) := by
  funext i; rw [← decide_not]

theorem i_cmp_neq_eq (hw : IsW w) {r : Reg} (hr : c.hasInt w r = true)
    (hx : w ≠ 8 → r = .r128 → ¬ (c.xop = true ∧ c.avx512vl = true)) (hn : w = 64 → n % 2 = 0)
    (hsse : w = 64 → r = .r128 → c.sse2 = true → (c.sse41 = true ∨ c.xop = true))
    (a b : Vec w n) :
    i_cmp_neq c r a b = some (Mask.of c .int r (fun i => decide (a i ≠ b i))) := by
  have hnul := Null.cmp_neq_eq false hw a b
  have hx' : w = 64 → r = .r128 → ¬ (c.xop = true ∧ c.avx512vl = true) := fun e => hx (by omega)
  have key : (do i_bit_not_m c .int r (← i_cmp_eq c r a b)) = some (Mask.of c .int r (fun i => decide (a i ≠ b i))) := by
    rw [i_cmp_eq_eq h hw hr hx' hn, Option.bind_eq_bind, Option.bind_some,
      i_bit_not_m_eq h (k := .int) hw hr, not_eq_fun]
  unfold i_cmp_neq
  split_ifs with h64 h8
  · subst h64
    dsimp only
    unfold i_cmp_neq64
    cases r <;> dsimp only <;> split_ifs <;>
    first
    | (refine retB_eq ?_ ?_ <;> first | assumption | exact Mask.of_vl (by assumption) | rfl | mask_repr h)
    | (refine retV_eq ?_ (sel_eq ?_) <;> first | rfl | assumption | mask_repr h)
    | (exact key)
    | cfg_absurd h
  · unfold i_cmp_neq8
    cases r <;> dsimp only <;> split_ifs <;>
    first
    | (refine retB_eq ?_ ?_ <;> first | assumption | exact Mask.of_vl (by assumption) | rfl | mask_repr h)
    | (refine retV_eq ?_ (sel_eq ?_) <;> first | rfl | assumption | mask_repr h)
    | (exact key)
    | cfg_absurd h
  · unfold i_cmp_neq_mid
    cases r <;> dsimp only <;> split_ifs <;>
    first
    | (refine retB_eq ?_ ?_ <;> first | assumption | exact Mask.of_vl (by assumption) | rfl | mask_repr h)
    | (refine retV_eq ?_ (sel_eq ?_) <;> first | rfl | assumption | mask_repr h)
    | (exact key)
    | cfg_absurd h

/-- What `cmp_neq` on 64-bit lanes computes on SSE2 without SSE4.1 and XOP. -/
theorem i_cmp_neq_sse2_eq (hs : c.sse2 = true) (h41 : ¬ c.sse41 = true) (hxop : ¬ c.xop = true)
    (hn : n % 2 = 0) (a b : Vec 64 n) :
    i_cmp_neq c .r128 a b = some (Mask.of c .int .r128 (fun i => decide
      ((a.recast 32 (2 * n)).at_ (2 * i.val) = (b.recast 32 (2 * n)).at_ (2 * i.val) ∨
       (a.recast 32 (2 * n)).at_ (2 * i.val + 1) = (b.recast 32 (2 * n)).at_ (2 * i.val + 1)))) := by
  have hc : ¬ (c.sse41 = true ∨ c.neon = true ∨ c.vsx207 = true ∨ c.msa = true) := by
    intro hc
    cfg_absurd h
  obtain ⟨m, hm⟩ : ∃ m, i_cmp_eq_narrow c .r128 (a.recast 32 (2 * n)) (b.recast 32 (2 * n)) = some m :=
    ⟨_, i_cmp_eq_narrow_eq h (isW32 h) rfl (by omega) _ _⟩
  have hv := eq32_as64 h a b m hm
  unfold i_cmp_neq
  rw [dif_pos rfl]
  dsimp only
  unfold i_cmp_neq64
  dsimp only
  rw [if_neg hxop, if_neg hc, if_pos hs, hm, Option.bind_eq_bind, Option.bind_some]
  simp only [hv, Option.bind_eq_bind]
  rw [swapHalves_eq h hn]
  simp only [Option.bind_some]
  rw [i_bit_or_eq h (k := .int) (isW64 h) rfl]
  simp only [Option.bind_some]
  refine retV_eq ?_ ?_
  · mask_repr h
  · funext i
    rw [swap_append, append_or, maskLane_or, maskLane_or, Bool.or_comm, maskLane_append]
    congr 1
    rw [← Bool.decide_or]

/-! ### floats -/

theorem f_cmp_eq' (hw : w = 32 ∨ w = 64) {r : Reg} (hr : c.hasVec .flt w r = true)
    {P M N : Vec w n → Vec w n → Fin n → Bool} {g : Fin n → Bool} {a b : Vec w n}
    (hP : P a b = g) (hM : M a b = g) (hN : N a b = g) :
    f_cmp c r P M N a b = some (Mask.of c .flt r g) := by
  unfold f_cmp
  cases r <;> dsimp only <;> split_ifs <;>
    first
    | (refine retB_eq ?_ ?_ <;> first | assumption | exact Mask.of_vl (by assumption) | rfl | mask_repr h)
    | (refine retV_eq ?_ (sel_eq ?_) <;> first | rfl | assumption | mask_repr h)
    | cfg_absurd h

theorem f_cmp_neq_eq (hw : w = 32 ∨ w = 64) {r : Reg} (hr : c.hasVec .flt w r = true) (a b : Vec w n) :
    f_cmp_neq c r a b = some (Mask.of c .flt r (fun i => Spec.Flt.fne (a i) (b i))) := by
  have key : (do i_bit_not_m c .flt r (← f_cmp_eq c r a b)) =
      some (Mask.of c .flt r (fun i => Spec.Flt.fne (a i) (b i))) := by
    unfold f_cmp_eq
    rw [f_cmp_eq' h hw hr (g := fun i => Spec.Flt.feq (a i) (b i)) rfl rfl rfl, Option.bind_eq_bind,
      Option.bind_some, i_bit_not_m_eq h (k := .flt) hw hr]
    rfl
  unfold f_cmp_neq
  cases r <;> dsimp only <;> split_ifs <;>
    first
    | (refine retB_eq ?_ ?_ <;> first | assumption | exact Mask.of_vl (by assumption) | rfl | mask_repr h)
    | (refine retV_eq ?_ (sel_eq ?_) <;> first | rfl | assumption | mask_repr h)
    | (exact key)
    | cfg_absurd h

end

end Simdpp
