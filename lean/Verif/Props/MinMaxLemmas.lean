import Verif.Model.MinMax
import Verif.Props.Arith
import Verif.Props.Shift
import Verif.Props.Compare
import Verif.Props.BlendLemmas

/-! Evaluation lemmas for min, max, avg, avg_trunc, abs. -/

namespace Simdpp
open Spec

variable {w n : Nat}

/-- Lane of smaller value. -/
def minLane (s : Bool) (x y : BitVec w) : BitVec w := if val s x ≤ val s y then x else y
/-- Lane of greater value. -/
def maxLane (s : Bool) (x y : BitVec w) : BitVec w := if val s y ≤ val s x then x else y

theorem bias_bias (x m : BitVec w) : x ^^^ m ^^^ m = x := by
  rw [BitVec.xor_assoc, BitVec.xor_self, BitVec.xor_zero]

/-- Flipping the top bit shifts the value: unsigned reading of the biased lane. -/
theorem val_bias' (hw : 0 < w) (x : BitVec w) :
    val false (x ^^^ BitVec.ofNat w (2 ^ (w - 1))) = val true x + 2 ^ (w - 1) := by
  have := val_bias hw (x ^^^ BitVec.ofNat w (2 ^ (w - 1)))
  rw [bias_bias] at this
  omega

section
variable {c : Cfg} (h : c.Ok) (hw : IsW w) {r : Reg} (hr : c.hasInt w r = true)
include h hw hr

theorem xorBias_eq (a : Vec w n) :
    xorBias c r a = some (fun i => a i ^^^ BitVec.ofNat w (2 ^ (w - 1))) := by
  unfold xorBias
  rw [i_bit_xor_eq h (k := .int) hw hr]; rfl

theorem minByBlend_eq (s : Bool)
    (hi : w = 64 → r = .r128 → c.sse2 = true → (c.avx2 = true ∨ c.xop = true))
    (hn32 : w = 64 → c.neon32 = false) (hx : w = 64 → r = .r128 → ¬ (c.xop = true ∧ c.avx512vl = true))
    (a b : Vec w n) : minByBlend c s r a b = some (fun i => minLane s (a i) (b i)) := by
  unfold minByBlend
  rw [i_cmp_lt_eq h hw hr s hi hn32 hx, Option.bind_eq_bind, Option.bind_some,
    i_blend_vm_eq h (k := .int) hw hr]
  congr 1; funext i
  unfold minLane
  simp only [decide_eq_true_eq]
  split_ifs with h1 h2 h2
  · rfl
  · omega
  · exact (val_inj s).1 (by omega)
  · rfl

theorem maxByBlend_eq (s : Bool)
    (hi : w = 64 → r = .r128 → c.sse2 = true → (c.avx2 = true ∨ c.xop = true))
    (hn32 : w = 64 → c.neon32 = false)
    (a b : Vec w n) : maxByBlend c s r a b = some (fun i => maxLane s (a i) (b i)) := by
  unfold maxByBlend
  rw [i_cmp_gt_eq h hw hr s hi hn32, Option.bind_eq_bind, Option.bind_some,
    i_blend_vm_eq h (k := .int) hw hr]
  congr 1; funext i
  unfold maxLane
  simp only [decide_eq_true_eq]
  split_ifs with h1 h2 h2
  · rfl
  · omega
  · exact (val_inj s).1 (by omega)
  · rfl

omit h hr in
theorem val_bias_le (s : Bool) (x y : BitVec w) :
    (val (!s) (x ^^^ BitVec.ofNat w (2 ^ (w - 1))) ≤ val (!s) (y ^^^ BitVec.ofNat w (2 ^ (w - 1)))) ↔
      val s x ≤ val s y := by
  have hp := isW_pos hw
  cases s
  · rw [Bool.not_false, val_bias hp, val_bias hp]; omega
  · rw [Bool.not_true, val_bias' hp, val_bias' hp]; omega

theorem minBias_eq (s : Bool) (a b : Vec w n) :
    (do let ca ← xorBias c r a
        let cb ← xorBias c r b
        xorBias c r (Hw.min (!s) ca cb)) = some (fun i => minLane s (a i) (b i)) := by
  simp only [xorBias_eq h hw hr, Option.bind_eq_bind, Option.bind_some]
  congr 1; funext i
  unfold Hw.min minLane
  simp only [val_bias_le hw]
  split_ifs <;> exact bias_bias _ _

theorem maxBias_eq (s : Bool) (a b : Vec w n) :
    (do let ca ← xorBias c r a
        let cb ← xorBias c r b
        xorBias c r (Hw.max (!s) ca cb)) = some (fun i => maxLane s (a i) (b i)) := by
  simp only [xorBias_eq h hw hr, Option.bind_eq_bind, Option.bind_some]
  congr 1; funext i
  unfold Hw.max maxLane
  simp only [val_bias_le hw]
  split_ifs <;> exact bias_bias _ _

theorem i_min_eq (s : Bool) (hm : w = 64 → r = .r128 → (c.sse2 = true → c.avx2 = true) ∧ c.neon32 = false)
    (a b : Vec w n) : i_min c s r a b = some (fun i => minLane s (a i) (b i)) := by
  have hN := Null.min_eq s hw a b
  unfold i_min
  cases r <;> dsimp only <;> split_ifs <;>
    first
    | rfl
    | exact congrArg some hN
    | exact minBias_eq h hw hr s a b
    | (refine minByBlend_eq h hw hr s ?_ ?_ ?_ a b <;> intros <;> by_contra <;> cfg_absurd h)
    | cfg_absurd h

theorem i_max_eq (s : Bool) (hm : w = 64 → r = .r128 → (c.sse2 = true → c.avx2 = true) ∧ c.neon32 = false)
    (a b : Vec w n) : i_max c s r a b = some (fun i => maxLane s (a i) (b i)) := by
  have hN := Null.max_eq s hw a b
  unfold i_max
  cases r <;> dsimp only <;> split_ifs <;>
    first
    | rfl
    | exact congrArg some hN
    | exact maxBias_eq h hw hr s a b
    | (refine maxByBlend_eq h hw hr s ?_ ?_ a b <;> intros <;> by_contra <;> cfg_absurd h)
    | cfg_absurd h

end

/-! ### averages -/

theorem nat_add_eq_xor_and : ∀ x y : Nat, x + y = (x ^^^ y) + 2 * (x &&& y) := by
  intro x
  induction x using Nat.strongRecOn with
  | ind x ih =>
    intro y
    by_cases hx : x = 0
    · subst hx; simp
    · have := ih (x / 2) (Nat.div_lt_self (by omega) (by omega)) (y / 2)
      have h1 : (x ^^^ y) / 2 = x / 2 ^^^ y / 2 := Nat.xor_div_two
      have h2 : (x &&& y) / 2 = x / 2 &&& y / 2 := Nat.and_div_two
      have h3 : (x ^^^ y) % 2 = (x % 2 + y % 2) % 2 := by
        have := Nat.xor_mod_two_pow (a := x) (b := y) (n := 1)
        simp only [Nat.pow_one] at this
        rw [this]
        rcases Nat.mod_two_eq_zero_or_one x with e | e <;>
          rcases Nat.mod_two_eq_zero_or_one y with e' | e' <;> rw [e, e'] <;> rfl
      have h4 : (x &&& y) % 2 = (x % 2) * (y % 2) := by
        have := Nat.and_mod_two_pow (a := x) (b := y) (n := 1)
        simp only [Nat.pow_one] at this
        rw [this]
        rcases Nat.mod_two_eq_zero_or_one x with e | e <;>
          rcases Nat.mod_two_eq_zero_or_one y with e' | e' <;> rw [e, e'] <;> rfl
      rcases Nat.mod_two_eq_zero_or_one x with e | e <;>
        rcases Nat.mod_two_eq_zero_or_one y with e' | e' <;> rw [e, e'] at h3 h4 <;> omega

theorem bv_add_eq_xor_and (x y : BitVec w) :
    x.toNat + y.toNat = (x ^^^ y).toNat + 2 * (x &&& y).toNat := by
  rw [BitVec.toNat_xor, BitVec.toNat_and]; exact nat_add_eq_xor_and _ _

/-- Half-sum of lanes, rounded down. -/
def hsum (s : Bool) (x y : BitVec w) : BitVec w := lane w ((val s x + val s y) / 2)
/-- Half-sum of lanes, rounded up. -/
def rsum (s : Bool) (x y : BitVec w) : BitVec w := lane w ((val s x + val s y + 1) / 2)

theorem emulTrunc_lane (x y : BitVec w) : (x &&& y) + ((x ^^^ y) >>> 1) = hsum false x y := by
  unfold hsum lane val
  simp only [Bool.false_eq_true, if_false]
  have e := bv_add_eq_xor_and x y
  have h2 : ((x.toNat : Int) + y.toNat) / 2 = (((x &&& y).toNat + (x ^^^ y).toNat / 2 : Nat) : Int) := by
    push_cast; omega
  rw [h2, BitVec.ofInt_natCast]
  apply BitVec.eq_of_toNat_eq
  rw [BitVec.toNat_add, BitVec.toNat_ushiftRight, BitVec.toNat_ofNat, Nat.shiftRight_eq_div_pow, Nat.pow_one]

theorem emulAvg_lane (hw : 0 < w) (x y : BitVec w) :
    (x &&& y) + ((x ^^^ y) >>> 1) + ((x ^^^ y) &&& 1#w) = rsum false x y := by
  unfold rsum lane val
  simp only [Bool.false_eq_true, if_false]
  have e := bv_add_eq_xor_and x y
  have h2 : ((x.toNat : Int) + y.toNat + 1) / 2
      = (((x &&& y).toNat + (x ^^^ y).toNat / 2 + (x ^^^ y).toNat % 2 : Nat) : Int) := by
    push_cast; omega
  rw [h2, BitVec.ofInt_natCast]
  apply BitVec.eq_of_toNat_eq
  have h3 : ((x ^^^ y) &&& 1#w).toNat = (x ^^^ y).toNat % 2 := by
    rw [BitVec.toNat_and, BitVec.toNat_ofNat, Nat.mod_eq_of_lt (Nat.one_lt_two_pow (by omega)), Nat.and_one_is_mod]
  rw [BitVec.toNat_add, BitVec.toNat_add, h3, BitVec.toNat_ushiftRight, BitVec.toNat_ofNat,
    Nat.shiftRight_eq_div_pow, Nat.pow_one, Nat.mod_add_mod]

/-- Averaging biased operands and removing the bias averages the signed values. -/
theorem bias_avg (hw : IsW w) (f : Int → Int) (hf : ∀ z : Int, f (z + 2 ^ w) = f z + 2 ^ (w - 1)) (x y : BitVec w) :
    lane w (f (val false (x ^^^ BitVec.ofNat w (2 ^ (w - 1))) + val false (y ^^^ BitVec.ofNat w (2 ^ (w - 1)))))
      ^^^ BitVec.ofNat w (2 ^ (w - 1)) = lane w (f (val true x + val true y)) := by
  have hp := isW_pos hw
  rw [val_bias' hp, val_bias' hp]
  have h2 : (2:Int) ^ w = 2 * 2 ^ (w - 1) := by
    rw [← Int.pow_succ', Nat.sub_add_cancel hp]
  have : val true x + 2 ^ (w - 1) + (val true y + 2 ^ (w - 1)) = (val true x + val true y) + 2 ^ w := by
    rw [h2]; omega
  rw [this, hf]
  have key : ∀ z : BitVec w, z ^^^ BitVec.ofNat w (2 ^ (w - 1)) = z - BitVec.ofNat w (2 ^ (w - 1)) := by
    intro z
    apply (val_inj true).1
    rw [val_bias hp]
    rw [← val_inj true |>.2 (lane_val true (z - _))]
    have hz := z.isLt
    rcases hw with rfl | rfl | rfl | rfl <;>
    · simp only [val, if_true, Bool.false_eq_true, if_false, lane, BitVec.ofInt_toInt]
      simp only [BitVec.toInt_eq_toNat_cond, BitVec.toNat_sub, BitVec.toNat_ofNat]
      split_ifs <;> omega
  rw [key]
  unfold lane
  have e2 : BitVec.ofInt w ((2:Int) ^ (w - 1)) = BitVec.ofNat w (2 ^ (w - 1)) := by
    have : ((2:Int) ^ (w - 1)) = ((2 ^ (w - 1) : Nat) : Int) := by push_cast; rfl
    rw [this, BitVec.ofInt_natCast]
  rw [BitVec.ofInt_add, e2, BitVec.add_sub_cancel]

section
variable {c : Cfg} (h : c.Ok) (hw : IsW w) {r : Reg} (hr : c.hasInt w r = true) (hn2 : n % 2 = 0)
include h hw hr hn2

theorem emulAvg_eq (a b : Vec w n) : emulAvg c r a b = some (fun i => rsum false (a i) (b i)) := by
  unfold emulAvg
  simp only [i_bit_and_eq h (k := .int) hw hr, i_bit_xor_eq h (k := .int) hw hr, Option.bind_eq_bind, Option.bind_some,
    shift_r_imm_eq h false hw hr hn2 _ (show 1 < w by rcases hw with rfl | rfl | rfl | rfl <;> omega), i_iadd_eq h hw hr, Vec.splat_apply]
  congr 1; funext i
  exact emulAvg_lane (isW_pos hw) _ _

theorem emulAvgTrunc_eq (a b : Vec w n) : emulAvgTrunc c r a b = some (fun i => hsum false (a i) (b i)) := by
  unfold emulAvgTrunc
  simp only [i_bit_and_eq h (k := .int) hw hr, i_bit_xor_eq h (k := .int) hw hr, Option.bind_eq_bind, Option.bind_some,
    shift_r_imm_eq h false hw hr hn2 _ (show 1 < w by rcases hw with rfl | rfl | rfl | rfl <;> omega), i_iadd_eq h hw hr]
  congr 1; funext i
  exact emulTrunc_lane _ _

theorem viaBias_eq (f : Vec w n → Vec w n → Option (Vec w n)) (F : Int → Int)
    (hF : ∀ z : Int, F (z + 2 ^ w) = F z + 2 ^ (w - 1))
    (hf : ∀ a b, f a b = some (fun i => lane w (F (val false (a i) + val false (b i))))) (a b : Vec w n) :
    viaBias c r f a b = some (fun i => lane w (F (val true (a i) + val true (b i)))) := by
  unfold viaBias
  simp only [xorBias_eq h hw hr, Option.bind_eq_bind, Option.bind_some, hf]
  congr 1; funext i
  exact bias_avg hw F hF _ _

end

theorem half_shift (hw : 0 < w) (k : Int) (z : Int) :
    (z + 2 ^ w + k) / 2 = (z + k) / 2 + 2 ^ (w - 1) := by
  have h2 : (2:Int) ^ w = 2 * 2 ^ (w - 1) := by
    rw [← Int.pow_succ', Nat.sub_add_cancel hw]
  rw [h2]; omega

open C in
/-- Bounds of a lane value at a concrete width, as numerals. -/
theorem val_range (s : Bool) (hw : 0 < w) (x : BitVec w) : lo s w ≤ val s x ∧ val s x ≤ hi s w := by
  cases s
  · have := x.isLt
    simp only [val, lo, hi, Bool.false_eq_true, if_false]
    have : (2:Int) ^ w = ((2 ^ w : Nat) : Int) := by push_cast; rfl
    omega
  · have h1 := x.toInt_lt; have h2 := x.le_toInt
    simp only [val, lo, hi, if_true]
    omega

open C in
theorem halfsum_lane (s : Bool) (hw : w = 8 ∨ w = 16 ∨ w = 32) (x y : BitVec w) :
    ∃ t, (0 < t.bits ∧ C.add (C.cast ⟨s, 2 * w⟩ (C.lane s x)) (C.lane s y) = some ⟨t, val s x + val s y⟩) ∧
      C.add ⟨t, val s x + val s y⟩ ⟨int32, 1⟩ = some ⟨t, val s x + val s y + 1⟩ ∧
      shr ⟨t, val s x + val s y⟩ ⟨int32, 1⟩ = some ⟨t, (val s x + val s y) / 2⟩ ∧
      shr ⟨t, val s x + val s y + 1⟩ ⟨int32, 1⟩ = some ⟨t, (val s x + val s y + 1) / 2⟩ := by
  have hx := val_range s (by omega) x
  have hy := val_range s (by omega) y
  have e1 : C.lane s x = ⟨⟨s, w⟩, val s x⟩ := rfl
  have e2 : C.lane s y = ⟨⟨s, w⟩, val s y⟩ := rfl
  rw [e1, e2]
  generalize val s x = p at *
  generalize val s y = q at *
  rcases hw with rfl | rfl | rfl <;> cases s <;>
    simp only [lo, hi, if_true, Bool.false_eq_true, if_false] at hx hy <;> norm_num at hx hy
  · refine ⟨int32, ⟨by decide, ?_⟩, ?_, ?_, ?_⟩
    · rw [cast_inR (by decide) (by inr), add_inR (u := int32) (by decide) (by decide) (by inr) (by inr) (by inr)]
    · rw [add_inR (u := int32) (by decide) (by decide) (by inr) (by inr) (by inr)]
    · exact shr_inR (k := 1) (by decide) (by decide) (by inr) (by decide) (by constructor <;> decide) (by decide)
    · exact shr_inR (k := 1) (by decide) (by decide) (by inr) (by decide) (by constructor <;> decide) (by decide)
  · refine ⟨int32, ⟨by decide, ?_⟩, ?_, ?_, ?_⟩
    · rw [cast_inR (by decide) (by inr), add_inR (u := int32) (by decide) (by decide) (by inr) (by inr) (by inr)]
    · rw [add_inR (u := int32) (by decide) (by decide) (by inr) (by inr) (by inr)]
    · exact shr_inR (k := 1) (by decide) (by decide) (by inr) (by decide) (by constructor <;> decide) (by decide)
    · exact shr_inR (k := 1) (by decide) (by decide) (by inr) (by decide) (by constructor <;> decide) (by decide)
  · refine ⟨uint32, ⟨by decide, ?_⟩, ?_, ?_, ?_⟩
    · rw [cast_inR (by decide) (by inr), add_inR (u := uint32) (by decide) (by decide) (by inr) (by inr) (by inr)]
    · rw [add_inR (u := uint32) (by decide) (by decide) (by inr) (by inr) (by inr)]
    · exact shr_inR (k := 1) (by decide) (by decide) (by inr) (by decide) (by constructor <;> decide) (by decide)
    · exact shr_inR (k := 1) (by decide) (by decide) (by inr) (by decide) (by constructor <;> decide) (by decide)
  · refine ⟨int32, ⟨by decide, ?_⟩, ?_, ?_, ?_⟩
    · rw [cast_inR (by decide) (by inr), add_inR (u := int32) (by decide) (by decide) (by inr) (by inr) (by inr)]
    · rw [add_inR (u := int32) (by decide) (by decide) (by inr) (by inr) (by inr)]
    · exact shr_inR (k := 1) (by decide) (by decide) (by inr) (by decide) (by constructor <;> decide) (by decide)
    · exact shr_inR (k := 1) (by decide) (by decide) (by inr) (by decide) (by constructor <;> decide) (by decide)
  · refine ⟨uint64, ⟨by decide, ?_⟩, ?_, ?_, ?_⟩
    · rw [cast_inR (by decide) (by inr), add_inR (u := uint64) (by decide) (by decide) (by inr) (by inr) (by inr)]
    · rw [add_inR (u := uint64) (by decide) (by decide) (by inr) (by inr) (by inr)]
    · exact shr_inR (k := 1) (by decide) (by decide) (by inr) (by decide) (by constructor <;> decide) (by decide)
    · exact shr_inR (k := 1) (by decide) (by decide) (by inr) (by decide) (by constructor <;> decide) (by decide)
  · refine ⟨int64, ⟨by decide, ?_⟩, ?_, ?_, ?_⟩
    · rw [cast_inR (by decide) (by inr), add_inR (u := int64) (by decide) (by decide) (by inr) (by inr) (by inr)]
    · rw [add_inR (u := int64) (by decide) (by decide) (by inr) (by inr) (by inr)]
    · exact shr_inR (k := 1) (by decide) (by decide) (by inr) (by decide) (by constructor <;> decide) (by decide)
    · exact shr_inR (k := 1) (by decide) (by decide) (by inr) (by decide) (by constructor <;> decide) (by decide)

/-- The portable loops compute the sum in a type wide enough to hold it. -/
theorem Null.avg_eq (s : Bool) (hw : w = 8 ∨ w = 16 ∨ w = 32) (a b : Vec w n) :
    Null.avg s a b = some (fun i => rsum s (a i) (b i)) := by
  unfold Null.avg
  rw [lanesM_eq_some]
  intro i
  obtain ⟨t, ⟨_, h1⟩, h2, _, h4⟩ := halfsum_lane s hw (a i) (b i)
  rw [h1, Option.bind_eq_bind, Option.bind_some, h2, Option.bind_some, h4]
  rfl

theorem Null.avg_trunc_eq (s : Bool) (hw : w = 8 ∨ w = 16 ∨ w = 32) (a b : Vec w n) :
    Null.avg_trunc s a b = some (fun i => hsum s (a i) (b i)) := by
  unfold Null.avg_trunc
  rw [lanesM_eq_some]
  intro i
  obtain ⟨t, ⟨_, h1⟩, _, h3, _⟩ := halfsum_lane s hw (a i) (b i)
  rw [h1, Option.bind_eq_bind, Option.bind_some, h3]
  rfl

section
variable {c : Cfg} (h : c.Ok) (hw : w = 8 ∨ w = 16 ∨ w = 32) {r : Reg} (hr : c.hasInt w r = true) (hn2 : n % 2 = 0)
include h hw hr hn2

theorem i_avg_u_eq (a b : Vec w n) : i_avg_u c r a b = some (fun i => rsum false (a i) (b i)) := by
  have hW : IsW w := by unfold IsW; omega
  have hE := emulAvg_eq h hW hr hn2 a b
  have hN := Null.avg_eq false hw a b
  unfold i_avg_u
  cases r <;> dsimp only <;> split_ifs <;> first | rfl | exact hN | exact hE | cfg_absurd h

theorem i_avg_eq (s : Bool) (a b : Vec w n) : i_avg c s r a b = some (fun i => rsum s (a i) (b i)) := by
  have hW : IsW w := by unfold IsW; omega
  unfold i_avg
  cases s
  · exact i_avg_u_eq h hw hr hn2 a b
  · have hB := viaBias_eq h hW hr hn2 (i_avg_u c r) (fun z => (z + 1) / 2)
      (fun z => half_shift (isW_pos hW) 1 z) (i_avg_u_eq h hw hr hn2) a b
    have hN := Null.avg_eq true hw a b
    rw [if_pos rfl]
    cases r <;> dsimp only <;> split_ifs <;> first | rfl | exact hN | exact hB | cfg_absurd h

theorem i_avg_trunc_eq (s : Bool) (a b : Vec w n) : i_avg_trunc c s r a b = some (fun i => hsum s (a i) (b i)) := by
  have hW : IsW w := by unfold IsW; omega
  have hB := viaBias_eq h hW hr hn2 (emulAvgTrunc c r) (fun z => z / 2)
    (fun z => by simpa using half_shift (isW_pos hW) 0 z) (emulAvgTrunc_eq h hW hr hn2) a b
  have hE := emulAvgTrunc_eq h hW hr hn2 a b
  have hN := Null.avg_trunc_eq s hw a b
  have hem : (if s then viaBias c r (emulAvgTrunc c r) a b else emulAvgTrunc c r a b) =
      some (fun i => hsum s (a i) (b i)) := by
    cases s
    · exact hE
    · exact hB
  unfold i_avg_trunc
  rw [hem]
  cases r <;> dsimp only <;> split_ifs <;> first | rfl | exact hN | cfg_absurd h

end

/-! ### abs -/

/-- Absolute value of a lane, modulo `2^w`. -/
def absLane (x : BitVec w) : BitVec w := lane w (Int.natAbs (val true x))

theorem absMask_lane (x : BitVec w) :
    (x ^^^ maskLane w (decide (val true x < 0))) - maskLane w (decide (val true x < 0)) = absLane x := by
  unfold absLane lane
  by_cases hx : val true x < 0
  · rw [decide_eq_true hx]
    have : (Int.natAbs (val true x) : Int) = - val true x := by omega
    rw [this, BitVec.ofInt_neg]
    have e : BitVec.ofInt w (val true x) = x := lane_val true x
    rw [e]
    show (x ^^^ BitVec.allOnes w) - BitVec.allOnes w = -x
    rw [BitVec.xor_allOnes, BitVec.neg_eq_not_add, BitVec.sub_eq_add_neg, ← BitVec.neg_one_eq_allOnes, BitVec.neg_neg]
  · rw [decide_eq_false hx]
    have : (Int.natAbs (val true x) : Int) = val true x := by omega
    rw [this]
    show (x ^^^ 0#w) - 0#w = _
    rw [BitVec.xor_zero, BitVec.sub_zero]
    exact (lane_val true x).symm

open C in
theorem nullAbs_lane (hw : IsW w) (x : BitVec w) (hx : w ≤ 16 ∨ x ≠ BitVec.intMin w) :
    (C.abs (C.lane true x)).map (toLane w) = some (absLane x) := by
  have hr := val_range true (isW_pos hw) x
  have hm : w ≤ 16 ∨ lo true w < val true x := by
    rcases hx with hx | hx
    · exact Or.inl hx
    · refine Or.inr (lt_of_le_of_ne hr.1 fun e => hx ?_)
      apply (val_inj true).1
      rw [← e]
      simp only [val, if_true, lo]
      rw [BitVec.toInt_intMin_of_pos (isW_pos hw)]
  have key : ∀ u : Ty, 0 < u.bits → promTy ⟨true, w⟩ = u → InR u (val true x) → InR u (- val true x) →
      (C.abs (C.lane true x)).map (toLane w) = some (absLane x) := by
    intro u hb hu h1 h2
    unfold C.abs
    have e1 : C.lane true x = ⟨⟨true, w⟩, val true x⟩ := rfl
    rw [e1]; dsimp only
    rw [hu, wrap_inR hb h1]
    unfold absLane Spec.lane
    split_ifs with hlt
    · rw [arith_inR hb h2, Option.map_some, toLane_mk]
      congr 2; omega
    · rw [Option.map_some, toLane_mk]
      congr 2; omega
  generalize val true x = p at *
  rcases hw with rfl | rfl | rfl | rfl <;>
    simp only [lo, hi, if_true] at hr hm <;> norm_num at hr hm
  · exact key int32 (by decide) (by decide) (by inr) (by inr)
  · exact key int32 (by decide) (by decide) (by inr) (by inr)
  · exact key int32 (by decide) (by decide) (by inr) (by inr)
  · exact key int64 (by decide) (by decide) (by inr) (by inr)

theorem Null.abs_eq (hw : IsW w) (a : Vec w n) (ha : w ≤ 16 ∨ ∀ i, a i ≠ BitVec.intMin w) :
    Null.abs true a = some (fun i => absLane (a i)) := by
  unfold Null.abs
  rw [lanesM_eq_some]
  exact fun i => nullAbs_lane hw _ (ha.imp id fun hh => hh i)

/-- Portable `abs` of the minimum of a 32- or 64-bit type is undefined behaviour. -/
theorem Null.abs_ub (hw : w = 32 ∨ w = 64) (a : Vec w n) (i : Fin n) (hi : a i = BitVec.intMin w) :
    Null.abs true a = none := by
  unfold Null.abs
  rw [lanesM_eq_none]
  refine ⟨i, ?_⟩
  rw [hi]
  rcases hw with rfl | rfl <;> decide

theorem pabs_eq (a : Vec w n) : Hw.pabs a = fun i => absLane (a i) := rfl
theorem add_a_eq (a : Vec w n) : Hw.add_a a (Vec.splat 0) = fun i => absLane (a i) := by
  funext i
  unfold Hw.add_a absLane
  simp [val, lane]

section
variable {c : Cfg} (h : c.Ok) (hw : IsW w) {r : Reg} (hr : c.hasInt w r = true)
include h hw hr

theorem absByMask_eq (a : Vec w n) :
    absByMask c r a (fun i => maskLane w (decide (val true (a i) < 0))) = some (fun i => absLane (a i)) := by
  unfold absByMask
  rw [i_bit_xor_eq h (k := .int) hw hr, Option.bind_eq_bind, Option.bind_some, i_isub_eq h hw hr]
  congr 1; funext i
  exact absMask_lane _

omit h hw hr in
theorem val_zero (s : Bool) : val s (0 : BitVec w) = 0 := by cases s <;> simp [val]

theorem i_iabs_narrow_eq (h64 : w ≠ 64) (a : Vec w n)
    (hub : c.null = true → w ≤ 16 ∨ ∀ i, a i ≠ BitVec.intMin w) :
    i_iabs_narrow c r a = some (fun i => absLane (a i)) := by
  unfold i_iabs_narrow
  cases r <;> dsimp only <;> split_ifs <;>
    first
    | rfl
    | exact Null.abs_eq hw a (hub ‹_›)
    | exact congrArg some (add_a_eq a)
    | (rw [i_cmp_lt_eq h hw hr true (by intros; omega) (by intros; omega) (by intros; omega),
        Option.bind_eq_bind, Option.bind_some, Mask.unmask_of]
       have e : ∀ i, val true ((Vec.splat 0 : Vec w n) i) = 0 := fun i => val_zero true
       simp only [e]
       exact absByMask_eq h hw hr a)
    | cfg_absurd h

end

theorem Vec.recast32_halves (a : Vec 64 n) (i : Fin n) :
    (a.recast 32 (2 * n)).at_ (2 * i.val + 1) = (a i).extractLsb' 32 32 ∧
    (a.recast 32 (2 * n)).at_ (2 * i.val) = (a i).setWidth 32 := by
  have e : (a i : BitVec (32 + 32)) = (a i).extractLsb' 32 32 ++ (a i).setWidth 32 := by
    apply BitVec.eq_of_getLsbD_eq
    intro k hk
    rw [BitVec.getLsbD_append]
    split_ifs with hk2
    · simp [hk2]
    · have h1 : k - 32 < 32 := by omega
      have h2 : 32 + (k - 32) = k := by omega
      simp [h1, h2]
  exact (append_inj32 _ _ _ _).1 ((Vec.halves a i).symm.trans e)

theorem neg_iff_msb (x : BitVec w) : decide (val true x < 0) = x.msb := by
  unfold val
  simp only [if_true]
  rw [BitVec.msb_eq_toInt]

theorem top_bit (x : BitVec 64) :
    x &&& 0x8000000000000000#64 = if x.msb then 0x8000000000000000#64 else 0 := by
  apply BitVec.eq_of_getLsbD_eq
  intro k hk
  have e : (0x8000000000000000#64).getLsbD k = decide (k = 63) := by
    have : (0x8000000000000000#64) = BitVec.twoPow 64 63 := by decide
    rw [this, BitVec.getLsbD_twoPow]; simp; omega
  rw [BitVec.getLsbD_and, e, BitVec.msb_eq_getLsbD_last]
  by_cases h : k = 63
  · subst h; cases hx : x.getLsbD (64 - 1) <;> simp_all
  · cases x.getLsbD (64 - 1) <;> simp [h, e]

section
variable {c : Cfg} (h : c.Ok) {n : Nat} (hn : n % 2 = 0) (a : Vec 64 n)
include h hn

theorem abs64_sse2_eq (hs : c.sse2 = true) : abs64_sse2 c a = some (fun i => absLane (a i)) := by
  have hf : c.hasVec .flt 64 .r128 = true := rfl
  have hm : ∀ i : Fin n, Spec.Flt.fne ((Vec.recast 64 n (fun j => bshr false
      ((Vec.recast 32 (2 * n) (fun i => a i &&& 0x8000000000000000#64)) j) 1)) i) ((Vec.splat 0 : Vec 64 n) i)
      = decide (val true (a i) < 0) := by
    intro i
    rw [neg_iff_msb]
    show Spec.Flt.fne ((Vec.recast (32 + 32) n _) i) _ = _
    rw [Vec.recast_up_eq rfl]
    obtain ⟨h1, h2⟩ := Vec.recast32_halves (fun i => a i &&& 0x8000000000000000#64) i
    have p1 : 2 * i.val + 1 < 2 * n := by omega
    have p2 : 2 * i.val < 2 * n := by omega
    rw [Vec.at_lt _ p1] at h1 ⊢
    rw [Vec.at_lt _ p2] at h2 ⊢
    simp only [h1, h2, Vec.splat_apply]
    rw [top_bit]
    cases (a i).msb <;> decide
  unfold abs64_sse2
  rw [i_bit_and_eq h (k := .int) (isW64 h) rfl, Option.bind_eq_bind, Option.bind_some,
    shift_r_imm_eq h false (isW32 h) rfl (by omega) _ (by omega), Option.bind_eq_bind, Option.bind_some,
    f_cmp_neq_eq h (Or.inr rfl) hf, Option.bind_eq_bind, Option.bind_some, Mask.unmask_of]
  simp only [Vec.splat_apply] at hm ⊢
  simp only [hm]
  exact absByMask_eq h (isW64 h) rfl a

theorem abs64_neon_eq : abs64_neon c a = some (fun i => absLane (a i)) := by
  unfold abs64_neon
  rw [shift_r_imm_eq h false (isW64 h) rfl hn _ (by omega), Option.bind_eq_bind, Option.bind_some,
    i_cmp_eq_eq h (isW32 h) rfl (by intros; omega) (by intros; omega), Option.bind_eq_bind, Option.bind_some,
    Mask.unmask_of, i_bit_not_eq h (k := .int) (isW32 h) rfl, Option.bind_eq_bind, Option.bind_some]
  have hm : (Vec.recast 64 n (fun i => ~~~ (dupEven (fun i => maskLane 32 (decide
      (Vec.recast 32 (2 * n) (fun i => bshr false (a i) 63) i = (Vec.splat 0 : Vec 32 (2 * n)) i))) i))) =
      fun i => maskLane 64 (decide (val true (a i) < 0)) := by
    funext i
    show (Vec.recast (32 + 32) n _) i = _
    rw [Vec.recast_up_eq rfl, neg_iff_msb]
    obtain ⟨_, h2⟩ := Vec.recast32_halves (fun i => bshr false (a i) 63) i
    have p1 : 2 * i.val + 1 < 2 * n := by omega
    have p2 : 2 * i.val < 2 * n := by omega
    rw [Vec.at_lt _ p2] at h2
    rw [Vec.at_lt _ p1, Vec.at_lt _ p2]
    unfold dupEven
    have q1 : (2 * i.val + 1) / 2 * 2 = 2 * i.val := by omega
    have q2 : 2 * i.val / 2 * 2 = 2 * i.val := by omega
    simp only [q1, q2, Vec.at_lt _ p2, h2, Vec.splat_apply]
    have e : bshr false (a i) 63 = if (a i).msb then 1#64 else 0#64 := by
      show a i >>> 63 = _
      have hl := (a i).isLt
      apply BitVec.eq_of_toNat_eq
      rw [BitVec.toNat_ushiftRight, Nat.shiftRight_eq_div_pow, BitVec.msb_eq_decide]
      by_cases hx : 2 ^ (64 - 1) ≤ (a i).toNat
      · rw [decide_eq_true hx]
        show _ = 1
        omega
      · rw [decide_eq_false hx]
        show _ = 0
        omega
    rw [e]
    cases (a i).msb <;> decide
  rw [hm]
  exact absByMask_eq h (isW64 h) rfl a

theorem i_iabs64_eq {r : Reg} (hr : c.hasInt 64 r = true)
    (hub : c.null = true ∨ (c.altivec = true ∧ c.vsx207 = false) → r = .r128 → ∀ i, a i ≠ BitVec.intMin 64) :
    i_iabs64 c r a = some (fun i => absLane (a i)) := by
  have hg : Hw.sel (Hw.gtP true (Vec.splat 0) a) = fun i => maskLane 64 (decide (val true (a i) < 0)) := by
    rw [gtP_eq]; funext i
    unfold Hw.sel maskLane
    simp only [Vec.splat_apply, val_zero]
  unfold i_iabs64
  cases r <;> dsimp only <;> split_ifs with h1 h2 h3 h4 h5 h6 <;>
    first
    | rfl
    | exact abs64_sse2_eq h hn a h2
    | exact abs64_neon_eq h hn a
    | exact congrArg some (add_a_eq a)
    | exact Null.abs_eq (isW64 h) a (Or.inr (hub (by simp_all) rfl))
    | (rw [hg]; exact absByMask_eq h (isW64 h) hr a)
    | cfg_absurd h

end

theorem i_iabs_eq {c : Cfg} (h : c.Ok) (hw : IsW w) {r : Reg} (hr : c.hasInt w r = true) (hn : w = 64 → n % 2 = 0)
    (a : Vec w n) (hub : (c.null = true ∧ 32 ≤ w) ∨ (w = 64 ∧ c.altivec = true ∧ c.vsx207 = false) → r = .r128 →
      ∀ i, a i ≠ BitVec.intMin w) :
    i_iabs c r a = some (fun i => absLane (a i)) := by
  unfold i_iabs
  split_ifs with h64
  · subst h64
    exact i_iabs64_eq h (hn rfl) a hr (fun hc => hub (by simpa using hc))
  · refine i_iabs_narrow_eq h hw hr h64 a fun hc => ?_
    by_cases h16 : w ≤ 16
    · exact Or.inl h16
    · refine Or.inr (hub (Or.inl ⟨hc, ?_⟩) ?_)
      · rcases hw with rfl | rfl | rfl | rfl <;> omega
      · cases r
        · rfl
        · cfg_absurd h
        · cfg_absurd h

end Simdpp
