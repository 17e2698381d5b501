import Verif.Model.Bytes16
import Verif.Props.Arith
import Verif.Props.Shift
import Verif.Props.BlendLemmas
import Verif.Props.CompareLemmas

/-!
# C20: byte permutes with run-time masks
-/

namespace Simdpp
open Spec Sh

variable {n : Nat}

/-! ## Bytes -/

theorem byte_bit7 (x : BitVec 8) : x.getLsbD 7 = decide (128 ≤ x.toNat) := by
  have := BitVec.msb_eq_decide x
  rw [BitVec.msb_eq_getLsbD_last] at this
  simpa using this

theorem byte_and0f (x : BitVec 8) : x.toNat &&& 0x0f = x.toNat % 16 :=
  Nat.and_two_pow_sub_one_eq_mod x.toNat 4

theorem byte_and80 : ∀ x : BitVec 8, (x.toNat &&& 0x80 ≠ 0) ↔ 128 ≤ x.toNat := by decide +kernel

theorem byte_bit4 : ∀ x : BitVec 8, x.getLsbD 4 = decide (16 ≤ x.toNat % 32) := by decide +kernel

theorem byte_test10 : ∀ x : BitVec 8, decide (x &&& 0x10 ≠ 0) = decide (16 ≤ x.toNat % 32) := by
  decide +kernel

theorem byte_lt10 : ∀ x : BitVec 8, decide (val true (x &&& 0x1f) < val true (0x10 : BitVec 8)) =
    decide (x.toNat % 32 < 16) := by decide +kernel

theorem byte_sra7 : ∀ x : BitVec 8, x.sshiftRight 7 = if 128 ≤ x.toNat then BitVec.allOnes 8 else 0 := by
  decide +kernel

theorem byte_add70 : ∀ x : BitVec 8, x.toNat < 32 → (x + 0x70).getLsbD 7 = decide (16 ≤ x.toNat) ∧
    (x + 0x70).toNat % 16 = x.toNat % 16 := by decide +kernel

theorem byte_addf0 : ∀ x : BitVec 8, x.toNat < 32 → (x + 0xf0).getLsbD 7 = decide (x.toNat < 16) ∧
    (x + 0xf0).toNat % 16 = x.toNat % 16 := by decide +kernel

theorem slli16_3_msb (hn : n % 2 = 0) (m : Vec 8 n) (i : Fin n) :
    (slli16_3 m i).msb = (m i).getLsbD 4 := by
  have hi := i.isLt
  unfold slli16_3
  rw [BitVec.msb_eq_getLsbD_last, Vec.recast_getLsbD]
  have hlt : i.val / 2 < n / 2 := by omega
  have e : i.val * 8 + 7 = (⟨i.val / 2, hlt⟩ : Fin (n / 2)).val * 16 + (i.val % 2 * 8 + 7) := by
    show _ = i.val / 2 * 16 + (i.val % 2 * 8 + 7); omega
  rw [show i.val * 8 + (8 - 1) = i.val * 8 + 7 from rfl, e, Vec.bit_eq _ _ (by omega)]
  unfold Hw.sll
  rw [BitVec.getLsbD_shiftLeft, Vec.recast_getLsbD]
  have e2 : i.val / 2 * 16 + (i.val % 2 * 8 + 7 - 3) = i.val * 8 + 4 := by omega
  rw [show (⟨i.val / 2, hlt⟩ : Fin (n / 2)).val * 16 + (i.val % 2 * 8 + 7 - 3) = i.val * 8 + 4 from e2,
    Vec.bit_eq _ _ (by decide)]
  have h1 : i.val % 2 * 8 + 7 < 16 := by omega
  have h2 : ¬ i.val % 2 * 8 + 7 < 3 := by omega
  have h3 : i.val % 2 * 8 + 7 - 3 < 16 := by omega
  simp [h1, h2]; omega

/-- Internal closed form: byte `m` of `b:a` in the block of byte `i`, zero for `m ≥ 128`. -/
def selB (a b m : Vec 8 n) : Vec 8 n := fun i =>
  if 128 ≤ (m i).toNat then 0
  else if (m i).toNat < 16 then a.at_ (i.val / 16 * 16 + (m i).toNat)
  else b.at_ (i.val / 16 * 16 + ((m i).toNat - 16))

/-- Legal masks of `shuffle_zbytes16`: bits 6..5 clear (or bit 7 set with bits 6..5 clear). -/
def okZ (x : BitVec 8) : Prop := x.toNat % 128 < 32

theorem pshufb_eq (a m : Vec 8 n) (hm : ∀ i, (m i).toNat % 128 < 16) :
    Hw.pshufb a m = selB a a m := by
  funext i
  have := hm i
  unfold Hw.pshufb selB
  rw [byte_bit7]
  by_cases h1 : 128 ≤ (m i).toNat
  · rw [if_pos (by simpa using h1), if_pos h1]
  · rw [if_neg (by simpa using h1), if_neg h1, if_pos (by omega), Nat.mod_eq_of_lt (by omega)]

theorem pick_eq (a b m : Vec 8 n) (hm : ∀ i, okZ (m i)) (p : Fin n → Bool)
    (hp : ∀ i, p i = decide (16 ≤ (m i).toNat % 32)) :
    (fun i => if p i then Hw.pshufb b m i else Hw.pshufb a m i) = selB a b m := by
  funext i
  have := hm i
  unfold okZ at this
  unfold Hw.pshufb selB
  rw [byte_bit7, hp]
  have hlt := (m i).isLt
  simp only [decide_eq_true_eq]
  by_cases h1 : 128 ≤ (m i).toNat
  · rw [if_pos h1, if_pos h1, if_pos h1, ite_self]
  · rw [if_neg h1, if_neg h1, if_neg h1]
    by_cases h2 : (m i).toNat < 16
    · rw [if_neg (show ¬ 16 ≤ (m i).toNat % 32 by omega), if_pos h2, Nat.mod_eq_of_lt h2]
    · rw [if_pos (show 16 ≤ (m i).toNat % 32 by omega), if_neg h2]
      congr 1; omega

theorem blend_slli_eq (hn : n % 2 = 0) (a b m : Vec 8 n) (hm : ∀ i, okZ (m i)) :
    Hw.blendv (Hw.pshufb a m) (Hw.pshufb b m) (slli16_3 m) = selB a b m :=
  pick_eq a b m hm (fun i => (slli16_3 m i).msb) fun i => by rw [slli16_3_msb hn, byte_bit4]

theorem blend_test_eq (a b m : Vec 8 n) (hm : ∀ i, okZ (m i)) :
    Hw.mask_blend (Hw.test_mask m (Vec.splat 0x10)) (Hw.pshufb a m) (Hw.pshufb b m) = selB a b m :=
  pick_eq a b m hm _ fun i => byte_test10 (m i)

theorem base16 {i : Nat} (hi : i < 16) : i / 16 * 16 = 0 := by omega

section r128
variable (a b m : Vec 8 16)

theorem null_permute_eq (hm : ∀ i, (m i).toNat < 16) : Null.permute_bytes16 a m = some (selB a a m) := by
  refine lanesM_eq_some.2 fun i => ?_
  have := hm i
  dsimp only
  rw [byte_and0f, rd_lt _ (by omega), selB, base16 i.isLt, if_neg (by omega), if_pos this,
    Nat.mod_eq_of_lt this, Nat.zero_add]

theorem null_permutez_eq (hm : ∀ i, (m i).toNat % 128 < 16) :
    Null.permute_zbytes16 a m = some (selB a a m) := by
  refine lanesM_eq_some.2 fun i => ?_
  have := hm i
  dsimp only
  rw [byte_and0f, rd_lt _ (by omega), selB, base16 i.isLt]
  by_cases h1 : 128 ≤ (m i).toNat
  · rw [if_pos ((byte_and80 _).2 h1), if_pos h1]
  · rw [if_neg (fun h => h1 ((byte_and80 _).1 h)), if_neg h1, if_pos (by omega),
      Nat.mod_eq_of_lt (by omega), Nat.zero_add]

theorem null_shufflez_eq (hm : ∀ i, okZ (m i)) :
    Null.shuffle_zbytes16 a b m = some (selB a b m) := by
  refine lanesM_eq_some.2 fun i => ?_
  have := hm i
  unfold okZ at this
  dsimp only
  rw [byte_and0f, rd_lt _ (by omega), rd_lt _ (by omega), selB, base16 i.isLt]
  by_cases h1 : 128 ≤ (m i).toNat
  · rw [if_pos ((byte_and80 _).2 h1), if_pos h1]
  · rw [if_neg (fun h => h1 ((byte_and80 _).1 h)), if_neg h1]
    by_cases h2 : (m i).toNat < 16
    · rw [if_pos h2, if_pos h2, Nat.mod_eq_of_lt h2, Nat.zero_add]
    · rw [if_neg h2, if_neg h2, Nat.zero_add]; congr 2; omega

theorem null_shuffle_eq (hm : ∀ i, (m i).toNat < 32) :
    Null.shuffle_bytes16 a b m = some (selB a b m) := by
  refine lanesM_eq_some.2 fun i => ?_
  have := hm i
  dsimp only
  rw [byte_and0f, rd_lt _ (by omega), rd_lt _ (by omega), selB, base16 i.isLt, if_neg (show ¬ 128 ≤ (m i).toNat by omega)]
  by_cases h2 : (m i).toNat < 16
  · rw [if_pos h2, if_pos h2, Nat.mod_eq_of_lt h2, Nat.zero_add]
  · rw [if_neg h2, if_neg h2, Nat.zero_add]; congr 2; omega

theorem tbl1_eq (hm : ∀ i, (m i).toNat % 128 < 16) : Hw.tbl1 a m = selB a a m := by
  funext i
  have := hm i
  unfold Hw.tbl1 selB
  rw [base16 i.isLt]
  simp only [Nat.zero_add]
  split_ifs <;> first | rfl | omega

theorem tbl2_eq (hm : ∀ i, okZ (m i)) : Hw.tbl2 a b m = selB a b m := by
  funext i
  have := hm i
  unfold okZ at this
  unfold Hw.tbl2 selB
  rw [base16 i.isLt]
  simp only [Nat.zero_add]
  split_ifs <;> first | rfl | omega

theorem vshf_eq (hm : ∀ i, okZ (m i)) : Hw.vshf_b m b a = selB a b m := by
  funext i
  have := hm i
  unfold okZ at this
  unfold Hw.vshf_b selB
  rw [base16 i.isLt]
  simp only [Nat.zero_add]
  have hlt := (m i).isLt
  by_cases h1 : 128 ≤ (m i).toNat
  · rw [if_pos (by omega), if_pos h1]
  · rw [if_neg (by omega), if_neg h1, Nat.mod_eq_of_lt (by omega)]

theorem vshf1_eq (hm : ∀ i, (m i).toNat % 128 < 16) : Hw.vshf_b m a a = selB a a m :=
  vshf_eq a a m fun i => by have := hm i; unfold okZ; omega

theorem vperm_eq (hm : ∀ i, (m i).toNat < 32) : Hw.vperm a b m = selB a b m := by
  funext i
  have := hm i
  unfold Hw.vperm selB
  rw [base16 i.isLt, Nat.mod_eq_of_lt this, if_neg (show ¬ 128 ≤ (m i).toNat by omega)]
  simp only [Nat.zero_add]

theorem vpperm_eq (hm : ∀ i, okZ (m i)) : Hw.vpperm a b m = some (selB a b m) := by
  refine lanesM_eq_some.2 fun i => ?_
  have := hm i
  unfold okZ at this
  have hlt := (m i).isLt
  dsimp only
  unfold selB
  by_cases h1 : 128 ≤ (m i).toNat
  · rw [if_neg (by omega), if_pos (by omega), if_pos h1]
  · rw [if_pos (by omega), if_neg h1, Nat.mod_eq_of_lt (by omega)]

/-- AltiVec: `vec_perm` keeps the low five bits, then the zero mask clears bytes. -/
theorem vperm_z_eq (hm : ∀ i, okZ (m i)) :
    (fun i => Hw.vperm a b m i &&& ~~~ (bshr true (m i) 7)) = selB a b m := by
  funext i
  have := hm i
  unfold okZ at this
  unfold bshr Hw.vperm selB
  rw [base16 i.isLt, if_pos rfl, byte_sra7]
  simp only [Nat.zero_add]
  by_cases h1 : 128 ≤ (m i).toNat
  · rw [if_pos h1, if_pos h1]; simp
  · rw [if_neg h1, if_neg h1, Nat.mod_eq_of_lt (by omega), show ~~~ (0 : BitVec 8) = BitVec.allOnes 8 from rfl,
      BitVec.and_allOnes]

theorem addor_eq (hm : ∀ i, (m i).toNat < 32) :
    (fun i => Hw.pshufb a (fun i => m i + 0x70) i ||| Hw.pshufb b (fun i => m i + 0xf0) i)
      = selB a b m := by
  funext i
  have := hm i
  unfold Hw.pshufb selB
  rw [base16 i.isLt, (byte_add70 _ this).1, (byte_add70 _ this).2, (byte_addf0 _ this).1,
    (byte_addf0 _ this).2, if_neg (show ¬ 128 ≤ (m i).toNat by omega)]
  simp only [Nat.zero_add]
  by_cases h2 : (m i).toNat < 16
  · rw [if_neg (by simp only [decide_eq_true_eq]; omega), if_pos (decide_eq_true h2), if_pos h2,
      Nat.mod_eq_of_lt h2]; simp
  · rw [if_pos (by simp only [decide_eq_true_eq]; omega), if_neg (by simpa using h2), if_neg h2,
      show (m i).toNat % 16 = (m i).toNat - 16 by omega]; simp

end r128

section
variable {c : Cfg} (h : c.Ok) {r : Reg} (hr : c.hasInt 8 r = true)
include h hr

theorem i_permute_bytes16_eq (hs : c.sse2 = true → c.ssse3 = true) (hn : n = r.lanes 8)
    (a m : Vec 8 n) (hm : ∀ i, (m i).toNat < 16) :
    i_permute_bytes16 c r a m = some (selB a a m) := by
  have hm2 : ∀ i, (m i).toNat % 128 < 16 := fun i => by have := hm i; omega
  have hp := pshufb_eq a m hm2
  unfold i_permute_bytes16
  cases r
  · have hn : n = 16 := hn
    subst hn
    dsimp only
    split_ifs
    · exact null_permute_eq a m hm
    · rw [hp]
    · rw [tbl1_eq a m hm2]
    · rw [tbl1_eq a m hm2]
    · rw [vperm_eq a a m fun i => by have := hm i; omega]
    · rw [vshf1_eq a m hm2]
    · cfg_absurd h
  · dsimp only; rw [if_pos (show c.avx2 = true from hr), hp]
  · dsimp only; rw [if_pos (show c.avx512bw = true from hr), hp]

theorem i_permute_zbytes16_eq (hs : c.sse2 = true → c.ssse3 = true) (hn : n = r.lanes 8)
    (a m : Vec 8 n) (hm : ∀ i, (m i).toNat % 128 < 16) :
    i_permute_zbytes16 c r a m = some (selB a a m) := by
  have hp := pshufb_eq a m hm
  unfold i_permute_zbytes16
  cases r
  · have hn : n = 16 := hn
    subst hn
    dsimp only
    split_ifs with h1 h2 h3 h4
    · exact null_permutez_eq a m hm
    · unfold i_permute_bytes16
      dsimp only
      split_ifs
      · rw [hp]
      · rw [tbl1_eq a m hm]
      · rw [tbl1_eq a m hm]
      all_goals cfg_absurd h
    · have e : i_permute_bytes16 c .r128 a m = some (Hw.vperm a a m) := by
        unfold i_permute_bytes16
        dsimp only
        split_ifs <;> first | rfl | cfg_absurd h
      rw [shift_r_imm_eq h true isW8 hr rfl m (by decide), e]
      simp only [Option.bind_eq_bind, Option.bind_some]
      rw [i_bit_andnot_eq h (k := .int) isW8 (r := .r128) hr,
        vperm_z_eq a a m fun i => by have := hm i; unfold okZ; omega]
    · rw [vshf1_eq a m hm]
    · cfg_absurd h
  · dsimp only; rw [if_pos (show c.avx2 = true from hr), hp]
  · dsimp only; rw [if_pos (show c.avx512bw = true from hr), hp]

theorem i_shuffle_bytes16_eq (hs : c.sse2 = true → (c.ssse3 = true ∨ c.xop = true)) (hn : n = r.lanes 8)
    (a b m : Vec 8 n) (hm : ∀ i, (m i).toNat < 32) :
    i_shuffle_bytes16 c r a b m = some (selB a b m) := by
  have hz : ∀ i, okZ (m i) := fun i => by have := hm i; unfold okZ; omega
  unfold i_shuffle_bytes16
  cases r
  · have hn : n = 16 := hn
    subst hn
    dsimp only
    split_ifs
    · exact null_shuffle_eq a b m hm
    · exact vpperm_eq a b m hz
    · rw [blend_slli_eq rfl a b m hz]
    · rw [i_iadd_eq h isW8 hr, i_iadd_eq h isW8 hr]
      simp only [Option.bind_eq_bind, Option.bind_some]
      rw [i_bit_or_eq h (k := .int) isW8 (r := .r128) hr]
      exact congrArg some (addor_eq a b m hm)
    · rw [tbl2_eq a b m hz]
    · rw [tbl2_eq a b m hz]
    · rw [vperm_eq a b m hm]
    · rw [vshf_eq a b m hz]
    · cfg_absurd h
  · dsimp only
    have : n = 32 := hn
    rw [if_pos (show c.avx2 = true from hr), blend_slli_eq (by omega) a b m hz]
  · dsimp only
    rw [if_pos (show c.avx512bw = true from hr), blend_test_eq a b m hz]

theorem i_shuffle_zbytes16_eq (hs : c.sse2 = true → (c.ssse3 = true ∨ c.xop = true)) (hn : n = r.lanes 8)
    (a b m : Vec 8 n) (hz : ∀ i, okZ (m i)) :
    i_shuffle_zbytes16 c r a b m = some (selB a b m) := by
  unfold i_shuffle_zbytes16
  cases r
  · have hn : n = 16 := hn
    subst hn
    dsimp only
    split_ifs
    · exact null_shufflez_eq a b m hz
    · exact vpperm_eq a b m hz
    · rw [blend_slli_eq rfl a b m hz]
    · rw [i_bit_and_eq h (k := .int) isW8 (r := .r128) hr]
      simp only [Option.bind_eq_bind, Option.bind_some]
      rw [i_cmp_lt_eq h isW8 hr true (fun h => absurd h (by decide)) (fun h => absurd h (by decide))
        (fun h => absurd h (by decide))]
      simp only [Option.bind_some]
      rw [i_blend_vm_eq h (k := .int) isW8 (r := .r128) hr]
      rw [← pick_eq a b m hz _ fun i => rfl]
      congr 1
      funext i
      have e := byte_lt10 (m i)
      rw [show decide (val true (m i &&& (Vec.splat 0x1f : Vec 8 16) i) < val true ((Vec.splat 0x10 : Vec 8 16) i)) = _ from e]
      by_cases h2 : (m i).toNat % 32 < 16
      · rw [if_pos (decide_eq_true h2), if_neg (by simp only [decide_eq_true_eq]; omega)]
      · rw [if_neg (by simpa using h2), if_pos (by simp only [decide_eq_true_eq]; omega)]
    · unfold i_shuffle_bytes16
      dsimp only
      split_ifs
      all_goals first | (rw [tbl2_eq a b m hz]) | cfg_absurd h
    · have e : i_shuffle_bytes16 c .r128 a b m = some (Hw.vperm a b m) := by
        unfold i_shuffle_bytes16
        dsimp only
        split_ifs <;> first | rfl | cfg_absurd h
      rw [shift_r_imm_eq h true isW8 hr rfl m (by decide), e]
      simp only [Option.bind_eq_bind, Option.bind_some]
      rw [i_bit_andnot_eq h (k := .int) isW8 (r := .r128) hr, vperm_z_eq a b m hz]
    · rw [vshf_eq a b m hz]
    · cfg_absurd h
  · dsimp only
    have : n = 32 := hn
    rw [if_pos (show c.avx2 = true from hr), blend_slli_eq (by omega) a b m hz]
  · dsimp only
    rw [if_pos (show c.avx512bw = true from hr), blend_test_eq a b m hz]

end

/-! ## Long vectors and wider lanes -/

theorem bit_flat {w K l : Nat} (x : Fin K → Vec w l) {k : Nat} (hk : k < w * (K * l)) :
    Vec.bit (Arr.flat x : Vec w (K * l)) k =
      (x ⟨k / (w * l), Nat.div_lt_of_lt_mul (by rwa [Nat.mul_comm (w * l), Nat.mul_left_comm] )⟩).bit
        (k % (w * l)) := by
  have hw : 0 < w := Nat.pos_of_ne_zero fun h => by subst h; simp at hk
  unfold Vec.bit
  rw [flat_at x (Nat.div_lt_of_lt_mul hk)]
  have e1 : k / w / l = k / (w * l) := Nat.div_div_eq_div_mul ..
  have e2 : k % (w * l) / w = k / w % l := Nat.mod_mul_right_div_self ..
  have e3 : k % (w * l) % w = k % w := Nat.mod_mul_right_mod ..
  rw [e2, e3]
  have : (⟨k / w / l, Nat.div_lt_of_lt_mul (by rw [Nat.mul_comm]; exact Nat.div_lt_of_lt_mul hk)⟩ : Fin K) =
      ⟨k / (w * l), Nat.div_lt_of_lt_mul (by rwa [Nat.mul_comm (w * l), Nat.mul_left_comm])⟩ := Fin.ext e1
  rw [this]

theorem flat_recast {w v K l m : Nat} (hv : 0 < v) (hs : v * m = w * l) (x : Fin K → Vec w l) :
    Vec.recast v (K * m) (Arr.flat x : Vec w (K * l)) =
      (Arr.flat (fun i => (x i).recast v m) : Vec v (K * m)) := by
  apply Vec.ext_bit
  intro k hk
  have hk' : k < w * (K * l) := by
    rw [Nat.mul_left_comm] at hk ⊢; rwa [← hs]
  have hpos : 0 < v * m := Nat.pos_of_ne_zero fun h => by
    rw [Nat.mul_left_comm, h] at hk; simp at hk
  rw [Vec.bit_recast _ hv hk, bit_flat x hk', bit_flat _ hk, Vec.bit_recast _ hv (Nat.mod_lt _ hpos)]
  have : (⟨k / (w * l), Nat.div_lt_of_lt_mul (by rwa [Nat.mul_comm (w * l), Nat.mul_left_comm])⟩ : Fin K) =
      ⟨k / (v * m), Nat.div_lt_of_lt_mul (by rwa [Nat.mul_comm (v * m), Nat.mul_left_comm])⟩ :=
    Fin.ext (by show k / (w * l) = k / (v * m); rw [hs])
  rw [this]
  congr 1
  rw [hs]

theorem selB_flat {K l : Nat} (hl : 16 ∣ l) (a b m : Fin K → Vec 8 l)
    (hz : ∀ i j, okZ (m i j)) :
    (Arr.flat (fun i => selB (a i) (b i) (m i)) : Vec 8 (K * l)) =
      selB (Arr.flat a : Vec 8 (K * l)) (Arr.flat b : Vec 8 (K * l)) (Arr.flat m : Vec 8 (K * l)) := by
  funext t
  have hl0 : 0 < l := Nat.pos_of_ne_zero fun h => by have := t.isLt; subst h; simp at this
  obtain ⟨d, rfl⟩ := hl
  have hq : t.val / (16 * d) < K := Nat.div_lt_of_lt_mul (by
    have := t.isLt; have := Nat.mul_comm K (16 * d); omega)
  have hin : t.val % (16 * d) < 16 * d := Nat.mod_lt _ hl0
  have key : ∀ (x : Fin K → Vec 8 (16 * d)) (k : Nat), k < 16 →
      Vec.at_ (Arr.flat x : Vec 8 (K * (16 * d))) (t.val / 16 * 16 + k) =
        (x ⟨t.val / (16 * d), hq⟩).at_ (t.val % (16 * d) / 16 * 16 + k) := by
    intro x k hk
    have e : t.val / 16 * 16 + k = t.val / (16 * d) * (16 * d) + (t.val % (16 * d) / 16 * 16 + k) := by
      have h1 : t.val % (16 * d) / 16 = t.val / 16 % d := Nat.mod_mul_right_div_self ..
      have h2 : t.val / (16 * d) = t.val / 16 / d := (Nat.div_div_eq_div_mul ..).symm
      rw [h1, h2]
      have h3 := Nat.div_add_mod (t.val / 16) d
      have h4 : t.val / 16 / d * (16 * d) = d * (t.val / 16 / d) * 16 := by
        rw [Nat.mul_comm (d * _), Nat.mul_left_comm, Nat.mul_comm d]
      omega
    have hk2 : t.val % (16 * d) / 16 * 16 + k < 16 * d := block_lt ⟨d, rfl⟩ hin hk
    rw [e]
    exact flat_at' x ⟨t.val / (16 * d), hq⟩ hk2
  show selB (a ⟨t.val / (16 * d), hq⟩) (b ⟨t.val / (16 * d), hq⟩) (m ⟨t.val / (16 * d), hq⟩)
    ⟨t.val % (16 * d), hin⟩ = _
  have hm : (Arr.flat m : Vec 8 (K * (16 * d))) t = m ⟨t.val / (16 * d), hq⟩ ⟨t.val % (16 * d), hin⟩ := rfl
  have := hz ⟨t.val / (16 * d), hq⟩ ⟨t.val % (16 * d), hin⟩
  unfold okZ at this
  unfold selB
  rw [hm]
  by_cases h1 : 128 ≤ (m ⟨t.val / (16 * d), hq⟩ ⟨t.val % (16 * d), hin⟩).toNat
  · rw [if_pos h1, if_pos h1]
  · rw [if_neg h1, if_neg h1]
    by_cases h2 : (m ⟨t.val / (16 * d), hq⟩ ⟨t.val % (16 * d), hin⟩).toNat < 16
    · rw [if_pos h2, if_pos h2]; exact (key a _ h2).symm
    · rw [if_neg h2, if_neg h2]; exact (key b _ (by omega)).symm

theorem selB_block {a b m : Vec 8 n} {q j : Nat} (hj : j < 16) (hq : q * 16 + j < n) :
    (selB a b m).at_ (q * 16 + j) =
      if 128 ≤ (m.at_ (q * 16 + j)).toNat then 0
      else if (m.at_ (q * 16 + j)).toNat < 16 then a.at_ (q * 16 + (m.at_ (q * 16 + j)).toNat)
      else b.at_ (q * 16 + ((m.at_ (q * 16 + j)).toNat - 16)) := by
  rw [Vec.at_lt _ hq, Vec.at_lt _ hq]
  unfold selB
  rw [show (q * 16 + j) / 16 * 16 = q * 16 by omega]

theorem lanes8 (r : Reg) : 16 ∣ r.lanes 8 := by cases r <;> decide

/-- Conversion of a run of base vectors to bytes: byte `t` of the whole vector. -/
def bytes {w K l : Nat} (x : Fin K → Vec w l) (nb : Nat) : Vec 8 nb :=
  Vec.recast 8 nb (Arr.flat x : Vec w (K * l))

/-- Byte masks: `P` holds of every byte of the mask vector. -/
def AllBytes {w K l : Nat} (P : Nat → Prop) (x : Fin K → Vec w l) (nb : Nat) : Prop :=
  ∀ t, t < nb → P ((bytes x nb).at_ t).toNat

section wide
variable {w K l m : Nat}

theorem wide2_eq (hw : 0 < w) (hs : 8 * l = w * m) (hl : 16 ∣ l)
    (op : Vec 8 l → Vec 8 l → Option (Vec 8 l)) (P : Nat → Prop)
    (hP : ∀ x : BitVec 8, P x.toNat → okZ x)
    (hop : ∀ a m, (∀ i, P (m i).toNat) → op a m = some (selB a a m))
    (a mask : Fin K → Vec w m) (d : Fin K → Vec 8 l) (hm : AllBytes P mask (K * l)) :
    ∃ res, bytes16_wide2 op m a mask d = some res ∧
      bytes res (K * l) = selB (bytes a (K * l)) (bytes a (K * l)) (bytes mask (K * l)) := by
  have hmk : ∀ (i : Fin K) (j : Fin l), P (((mask i).recast 8 l) j).toNat := by
    intro i j
    have hlt : i.val * l + j.val < K * l := by
      have : (i.val + 1) * l ≤ K * l := Nat.mul_le_mul_right _ i.isLt
      rw [Nat.add_mul, Nat.one_mul] at this; have := j.isLt; omega
    have := hm (i.val * l + j.val) hlt
    unfold bytes at this
    rw [flat_recast (by decide) hs, flat_at' _ i j.isLt, Vec.at_fin] at this
    exact this
  have h1 := Arr.apply2_spec op (fun i => (a i).recast 8 l) (fun i => (mask i).recast 8 l)
    (fun i => selB ((a i).recast 8 l) ((a i).recast 8 l) ((mask i).recast 8 l))
    (fun i => hop _ _ (hmk i)) 0 d
  refine ⟨fun i => (selB ((a i).recast 8 l) ((a i).recast 8 l) ((mask i).recast 8 l)).recast w m, ?_, ?_⟩
  · unfold bytes16_wide2
    rw [h1]
    simp only [Nat.zero_le, if_true]
    rfl
  · unfold bytes
    rw [flat_recast (by decide) hs, flat_recast (by decide) hs, flat_recast (by decide) hs,
      ← selB_flat hl _ _ _ fun i j => hP _ (hmk i j)]
    congr 1
    funext i
    exact Vec.recast_recast _ hw (by omega)

theorem wide3_eq (hw : 0 < w) (hs : 8 * l = w * m) (hl : 16 ∣ l)
    (op : Vec 8 l → Vec 8 l → Vec 8 l → Option (Vec 8 l)) (P : Nat → Prop)
    (hP : ∀ x : BitVec 8, P x.toNat → okZ x)
    (hop : ∀ a b m, (∀ i, P (m i).toNat) → op a b m = some (selB a b m))
    (a b mask : Fin K → Vec w m) (d : Fin K → Vec 8 l) (hm : AllBytes P mask (K * l)) :
    ∃ res, bytes16_wide3 op m a b mask d = some res ∧
      bytes res (K * l) = selB (bytes a (K * l)) (bytes b (K * l)) (bytes mask (K * l)) := by
  have hmk : ∀ (i : Fin K) (j : Fin l), P (((mask i).recast 8 l) j).toNat := by
    intro i j
    have hlt : i.val * l + j.val < K * l := by
      have : (i.val + 1) * l ≤ K * l := Nat.mul_le_mul_right _ i.isLt
      rw [Nat.add_mul, Nat.one_mul] at this; have := j.isLt; omega
    have := hm (i.val * l + j.val) hlt
    unfold bytes at this
    rw [flat_recast (by decide) hs, flat_at' _ i j.isLt, Vec.at_fin] at this
    exact this
  have h1 := Arr.apply3_spec op (fun i => (a i).recast 8 l) (fun i => (b i).recast 8 l)
    (fun i => (mask i).recast 8 l)
    (fun i => selB ((a i).recast 8 l) ((b i).recast 8 l) ((mask i).recast 8 l))
    (fun i => hop _ _ _ (hmk i)) 0 d
  refine ⟨fun i => (selB ((a i).recast 8 l) ((b i).recast 8 l) ((mask i).recast 8 l)).recast w m, ?_, ?_⟩
  · unfold bytes16_wide3
    rw [h1]
    simp only [Nat.zero_le, if_true]
    rfl
  · unfold bytes
    rw [flat_recast (by decide) hs, flat_recast (by decide) hs, flat_recast (by decide) hs,
      flat_recast (by decide) hs, ← selB_flat hl _ _ _ fun i j => hP _ (hmk i j)]
    congr 1
    funext i
    exact Vec.recast_recast _ hw (by omega)

end wide

theorem lanes_mul {w : Nat} (hw : IsW w) (r : Reg) : 8 * r.lanes 8 = w * r.lanes w := by
  rcases hw with rfl | rfl | rfl | rfl <;> cases r <;> decide

/-! ## C20 -/

section
variable {w K : Nat} {c : Cfg} (h : c.Ok) (hw : IsW w) {r : Reg} (hr : c.hasInt 8 r = true)
include h hw hr

/-- C20 (`permute_bytes16`): on every configuration that has the operation, for every lane type,
every vector length (`K` base vectors) and every run-time mask whose bytes are below 16, byte `j` of
each 16-byte block of the result is the byte of the same block of `a` named by the mask byte. -/
theorem C20_permute_bytes16 (hs : c.sse2 = true → c.ssse3 = true)
    (a mask : Fin K → Vec w (r.lanes w)) (d : Fin K → Vec 8 (r.lanes 8))
    (hm : AllBytes (· < 16) mask (K * r.lanes 8)) :
    ∃ res, bytes16_wide2 (i_permute_bytes16 c r) (r.lanes w) a mask d = some res ∧
      ∀ q j, j < 16 → q * 16 + j < K * r.lanes 8 →
        (bytes res (K * r.lanes 8)).at_ (q * 16 + j) =
          (bytes a (K * r.lanes 8)).at_
            (q * 16 + ((bytes mask (K * r.lanes 8)).at_ (q * 16 + j)).toNat) := by
  obtain ⟨res, e, p⟩ := wide2_eq (isW_pos hw) (lanes_mul hw r) (lanes8 r) (i_permute_bytes16 c r) (· < 16)
    (fun x hx => by unfold okZ; omega) (fun a m hm => i_permute_bytes16_eq h hr hs rfl a m hm) a mask d hm
  refine ⟨res, e, fun q j hj hq => ?_⟩
  have := hm _ hq
  rw [p, selB_block hj hq, if_neg (by omega), if_pos this]

/-- C20 (`permute_zbytes16`): legal masks have bits 6..4 clear; bit 7 zeroes the byte. -/
theorem C20_permute_zbytes16 (hs : c.sse2 = true → c.ssse3 = true)
    (a mask : Fin K → Vec w (r.lanes w)) (d : Fin K → Vec 8 (r.lanes 8))
    (hm : AllBytes (fun x => x % 128 < 16) mask (K * r.lanes 8)) :
    ∃ res, bytes16_wide2 (i_permute_zbytes16 c r) (r.lanes w) a mask d = some res ∧
      ∀ q j, j < 16 → q * 16 + j < K * r.lanes 8 →
        let x := ((bytes mask (K * r.lanes 8)).at_ (q * 16 + j)).toNat
        (bytes res (K * r.lanes 8)).at_ (q * 16 + j) =
          if 128 ≤ x then 0 else (bytes a (K * r.lanes 8)).at_ (q * 16 + x) := by
  obtain ⟨res, e, p⟩ := wide2_eq (isW_pos hw) (lanes_mul hw r) (lanes8 r) (i_permute_zbytes16 c r)
    (fun x => x % 128 < 16)
    (fun x hx => by unfold okZ; omega) (fun a m hm => i_permute_zbytes16_eq h hr hs rfl a m hm) a mask d hm
  refine ⟨res, e, fun q j hj hq => ?_⟩
  have := hm _ hq
  dsimp only
  rw [p, selB_block hj hq]
  split_ifs
  · rfl
  · rfl
  · omega

/-- C20 (`shuffle_bytes16`): legal masks have bits 7..5 clear; bit 4 chooses the operand. -/
theorem C20_shuffle_bytes16 (hs : c.sse2 = true → (c.ssse3 = true ∨ c.xop = true))
    (a b mask : Fin K → Vec w (r.lanes w)) (d : Fin K → Vec 8 (r.lanes 8))
    (hm : AllBytes (· < 32) mask (K * r.lanes 8)) :
    ∃ res, bytes16_wide3 (i_shuffle_bytes16 c r) (r.lanes w) a b mask d = some res ∧
      ∀ q j, j < 16 → q * 16 + j < K * r.lanes 8 →
        let x := ((bytes mask (K * r.lanes 8)).at_ (q * 16 + j)).toNat
        (bytes res (K * r.lanes 8)).at_ (q * 16 + j) =
          if x < 16 then (bytes a (K * r.lanes 8)).at_ (q * 16 + x)
          else (bytes b (K * r.lanes 8)).at_ (q * 16 + (x - 16)) := by
  obtain ⟨res, e, p⟩ := wide3_eq (isW_pos hw) (lanes_mul hw r) (lanes8 r) (i_shuffle_bytes16 c r)
    (· < 32) (fun x hx => by unfold okZ; omega)
    (fun a b m hm => i_shuffle_bytes16_eq h hr hs rfl a b m hm) a b mask d hm
  refine ⟨res, e, fun q j hj hq => ?_⟩
  have := hm _ hq
  dsimp only
  rw [p, selB_block hj hq, if_neg (by omega)]

/-- C20 (`shuffle_zbytes16`): legal masks have bits 6..5 clear; bit 7 zeroes the byte. -/
theorem C20_shuffle_zbytes16 (hs : c.sse2 = true → (c.ssse3 = true ∨ c.xop = true))
    (a b mask : Fin K → Vec w (r.lanes w)) (d : Fin K → Vec 8 (r.lanes 8))
    (hm : AllBytes (fun x => x % 128 < 32) mask (K * r.lanes 8)) :
    ∃ res, bytes16_wide3 (i_shuffle_zbytes16 c r) (r.lanes w) a b mask d = some res ∧
      ∀ q j, j < 16 → q * 16 + j < K * r.lanes 8 →
        let x := ((bytes mask (K * r.lanes 8)).at_ (q * 16 + j)).toNat
        (bytes res (K * r.lanes 8)).at_ (q * 16 + j) =
          if 128 ≤ x then 0
          else if x < 16 then (bytes a (K * r.lanes 8)).at_ (q * 16 + x)
          else (bytes b (K * r.lanes 8)).at_ (q * 16 + (x - 16)) := by
  obtain ⟨res, e, p⟩ := wide3_eq (isW_pos hw) (lanes_mul hw r) (lanes8 r) (i_shuffle_zbytes16 c r)
    (fun x => x % 128 < 32) (fun x hx => hx)
    (fun a b m hm => i_shuffle_zbytes16_eq h hr hs rfl a b m hm) a b mask d hm
  refine ⟨res, e, fun q j hj hq => ?_⟩
  rw [p, selB_block hj hq]

end

/-- C20: on x86 without SSSE3 (and, for the two-operand forms, without XOP) the operations are
rejected at compile time, so every configuration either satisfies the theorems above or has no such
operation. -/
theorem C20_rejected {c : Cfg} (h : c.Ok) (hs : c.sse2 = true) (h3 : c.ssse3 = false)
    (a b m : Vec 8 n) :
    i_permute_bytes16 c .r128 a m = none ∧ i_permute_zbytes16 c .r128 a m = none ∧
    (c.xop = false → i_shuffle_bytes16 c .r128 a b m = none ∧
      i_shuffle_zbytes16 c .r128 a b m = none) := by
  refine ⟨?_, ?_, fun hx => ⟨?_, ?_⟩⟩
  · unfold i_permute_bytes16; dsimp only; split_ifs <;> first | rfl | cfg_absurd h
  · unfold i_permute_zbytes16; dsimp only; split_ifs <;> first | rfl | cfg_absurd h
  · unfold i_shuffle_bytes16; dsimp only; split_ifs <;> first | rfl | cfg_absurd h
  · unfold i_shuffle_zbytes16; dsimp only; split_ifs <;> first | rfl | cfg_absurd h

/-! Non-vacuity: a rotating mask that also zeroes a byte, on an SSE2+SSSE3 build, and portable. -/

/-- SSSE3 without SSE4.1. -/
def Cfg.ssse3Only : Cfg := { Cfg.sse2Only with sse3 := true, ssse3 := true }
theorem Cfg.ssse3Only_ok : Cfg.ssse3Only.Ok := by constructor <;> decide

/-- A mask that picks from both operands and zeroes byte 3. -/
def exMask : Vec 8 16 := fun i => if i.val = 3 then 0x80 else BitVec.ofNat 8 ((i.val * 7 + 3) % 32)

theorem exMask_legal : ∀ i, okZ (exMask i) := by
  unfold okZ; decide +kernel

example : ∃ res, i_shuffle_zbytes16 Cfg.ssse3Only .r128 (fun i => BitVec.ofNat 8 (100 + i.val))
    (fun i => BitVec.ofNat 8 (200 + i.val)) exMask = some res ∧ res 0 = 103 ∧ res 2 = 201 ∧ res 3 = 0 :=
  ⟨_, i_shuffle_zbytes16_eq Cfg.ssse3Only_ok rfl (fun _ => .inl rfl) rfl _ _ _ exMask_legal, by decide, by decide, by decide⟩

example : AllBytes (fun x => x % 128 < 32) (fun _ : Fin 3 => exMask) 48 := by
  intro t ht
  unfold bytes
  rw [Vec.recast_self, flat_at _ ht]
  have := exMask_legal ⟨t % 16, Nat.mod_lt _ (by decide)⟩
  unfold okZ at this
  rw [Vec.at_lt _ (Nat.mod_lt _ (by decide))]
  exact this

end Simdpp
