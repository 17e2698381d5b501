import Verif.Model.Mask
import Verif.Props.BitwiseLemmas

/-! Evaluation of mask operations on every configuration. -/

namespace Simdpp
open Spec

variable {w n : Nat}

/-- The mask object of this build that stands for the lane predicate `f`. -/
def Mask.of (c : Cfg) (k : Kind) (r : Reg) (f : Fin n → Bool) : Mask w n :=
  if c.maskBits k w r then .bits f else .vec (fun i => maskLane w (f i))

theorem Mask.unmask_of (c : Cfg) (k : Kind) (r : Reg) (f : Fin n → Bool) :
    (Mask.of c k r f : Mask w n).unmask = fun i => maskLane w (f i) := by
  unfold Mask.of
  split_ifs <;> rfl

theorem Mask.asBits_of {c : Cfg} {k : Kind} {r : Reg} (h : c.maskBits k w r = true)
    (f : Fin n → Bool) : (Mask.of c k r f : Mask w n).asBits = some f := by
  unfold Mask.of; rw [if_pos h]; rfl

theorem maskLane_msb (hw : 0 < w) (p : Bool) : (maskLane w p).msb = p := by
  cases p
  · simp [maskLane]
  · simp only [maskLane, if_true]
    rw [BitVec.msb_eq_getLsbD_last, BitVec.getLsbD_allOnes]
    simp; omega

theorem maskLane_ne_zero (hw : 0 < w) (p : Bool) :
    decide (maskLane w p ≠ 0) = p := by
  cases p
  · simp [maskLane]
  · simp only [maskLane, if_true, decide_eq_true_eq]
    intro h
    have := congrArg (fun x => x.getLsbD 0) h
    simp at this; omega

theorem maskLane_fneZero (hw : 1 < w) (p : Bool) : fneZero (maskLane w p) = p := by
  cases p
  · simp [maskLane, fneZero]
  · simp only [maskLane, if_true, fneZero, decide_eq_true_eq]
    intro h
    have := congrArg (fun x => x.getLsbD 0) h
    simp only [BitVec.getLsbD_and, BitVec.getLsbD_ofNat, BitVec.getLsbD_allOnes] at this
    have h2 : (2 ^ (w - 1) - 1).testBit 0 = true := by
      rw [Nat.testBit_two_pow_sub_one]; simp; omega
    simp [h2] at this; omega

theorem maskLane_and_self (p : Bool) : maskLane w p &&& maskLane w p = maskLane w p := by simp

theorem Mask.of_vl {c : Cfg} {k : Kind} {r : Reg} (h : c.avx512vl = true) :
    c.maskBits k w r = true := by
  cases r <;> simp [Cfg.maskBits, h]

theorem Mask.of_mmNull {c : Cfg} (h : c.Ok) {k : Kind} (hw : k.okW w) (hn : c.mmNull k w = true) :
    c.maskBits k w .r128 = true := by
  have h0 := h.null; have h1 := h.excl; have h2 := h.vsx206; have h3 := h.vsx207
  have h4 := h.neonFltSp; have h5 := h.neon64
  cases k
  · simp only [Cfg.mmNull, Cfg.maskBits] at *
    rcases hw with rfl | rfl | rfl | rfl <;> simp_all <;> grind
  · simp only [Cfg.mmNull, Cfg.maskBits, Cfg.neonNoFltSp, Cfg.neon32, Cfg.neon64] at *
    rcases hw with rfl | rfl <;> simp_all <;> grind

theorem Mask.of_not_mmNull {c : Cfg} (h : c.Ok) {k : Kind} (hw : k.okW w)
    (hn : ¬ c.mmNull k w = true) (hv : ¬ c.avx512vl = true) : ¬ c.maskBits k w .r128 = true := by
  have h0 := h.null; have h1 := h.excl; have h2 := h.vsx206; have h3 := h.vsx207
  have h4 := h.neonFltSp; have h5 := h.neon64
  cases k
  · simp only [Cfg.mmNull, Cfg.maskBits] at *
    rcases hw with rfl | rfl | rfl | rfl <;> simp_all <;> grind
  · simp only [Cfg.mmNull, Cfg.maskBits, Cfg.neonNoFltSp, Cfg.neon32, Cfg.neon64] at *
    rcases hw with rfl | rfl <;> simp_all <;> grind

theorem movepi_maskLane (hw : 0 < w) (f : Fin n → Bool) :
    Hw.movepi_mask (fun i => maskLane w (f i)) = f := funext fun _ => maskLane_msb hw _

theorem test_maskLane (hw : 0 < w) (f : Fin n → Bool) :
    Hw.test_mask (fun i => maskLane w (f i)) (fun i => maskLane w (f i)) = f :=
  funext fun i => by unfold Hw.test_mask; rw [maskLane_and_self, maskLane_ne_zero hw]

theorem neq0_maskLane (hw : IsW w) (f : Fin n → Bool) :
    Null.cmp_neq false (fun i => maskLane w (f i)) (fun _ => 0) = f := by
  rw [Null.cmp_neq_eq _ hw]; exact funext fun i => maskLane_ne_zero (isW_pos hw) _

/-- `to_mask` of an all-ones/zeros vector is the mask. -/
theorem i_to_mask_maskLane {c : Cfg} (h : c.Ok) {k : Kind} (hw : k.okW w) {r : Reg}
    (f : Fin n → Bool) :
    i_to_mask c k r (fun i => maskLane w (f i)) = Mask.of c k r f := by
  have hp := isW_pos hw.isW
  have h1w : 1 < w := by rcases hw.isW with rfl | rfl | rfl | rfl <;> omega
  have hfz : (fun i => fneZero (maskLane w (f i))) = f := funext fun i => maskLane_fneZero h1w _
  unfold i_to_mask Mask.of
  rw [movepi_maskLane hp, test_maskLane hp, neq0_maskLane hw.isW, hfz]
  have h0 := h.null; have h1 := h.excl; have h2 := h.vsx206; have h3 := h.vsx207
  have h4 := h.neonFltSp; have h5 := h.neon64
  have h6 := h.avx512vl; have h7 := h.avx512f; have h8 := h.avx2; have h9 := h.avx
  have h10 := h.sse41; have h11 := h.ssse3; have h12 := h.sse3
  cases k <;> cases r <;> simp only [Cfg.maskBits, Cfg.neon64] at *
  · rcases hw with rfl | rfl | rfl | rfl <;> simp <;> grind
  · split_ifs <;> simp_all
  · split_ifs <;> rfl
  · rcases hw with rfl | rfl <;> simp <;> grind
  · split_ifs <;> simp_all
  · rfl

theorem maskLane_and (p q : Bool) : maskLane w p &&& maskLane w q = maskLane w (p && q) := by
  cases p <;> cases q <;> simp [maskLane]
theorem maskLane_or (p q : Bool) : maskLane w p ||| maskLane w q = maskLane w (p || q) := by
  cases p <;> cases q <;> simp [maskLane]
theorem maskLane_xor (p q : Bool) : maskLane w p ^^^ maskLane w q = maskLane w (p ^^ q) := by
  cases p <;> cases q <;> simp [maskLane]
theorem maskLane_not (p : Bool) : ~~~ maskLane w p = maskLane w (!p) := by
  cases p <;> simp [maskLane]
theorem maskLane_andnot (p q : Bool) : maskLane w p &&& ~~~ maskLane w q = maskLane w (p && !q) := by
  rw [maskLane_not, maskLane_and]
theorem and_maskLane (x : BitVec w) (p : Bool) : x &&& maskLane w p = if p then x else 0 := by
  cases p <;> simp [maskLane]
theorem andnot_maskLane (x : BitVec w) (p : Bool) : x &&& ~~~ maskLane w p = if p then 0 else x := by
  cases p <;> simp [maskLane]

section
variable {c : Cfg} (h : c.Ok) {k : Kind} (hw : k.okW w) {r : Reg} (hr : c.hasVec k w r = true)
include h hw hr

theorem vm_null_bits (hn : c.null = true ∨ (k = .int ∧ w = 64 ∧ c.altivec = true ∧ ¬ c.vsx207 = true)) :
    c.maskBits k w .r128 = true := by
  apply Mask.of_mmNull h hw
  rcases hn with hn | ⟨rfl, rfl, h1, h2⟩
  · unfold Cfg.mmNull; cases k
    · simp [hn]
    · simp only [hn, Bool.true_or]; split <;> rfl
  · simp [Cfg.mmNull, h1, h2]

theorem i_bit_and_vm_eq (a : Vec w n) (f : Fin n → Bool) :
    i_bit_and_vm c k r a (Mask.of c k r f) = some (fun i => if f i then a i else 0) := by
  unfold i_bit_and_vm
  split
  · split_ifs with h1 h2
    · rw [Mask.asBits_of (vm_null_bits h hw hr h1)]; rfl
    · rw [Mask.asBits_of (Mask.of_vl h2)]; rfl
    · rw [i_bit_and_eq h hw hr, Mask.unmask_of]; simp only [and_maskLane]
  · rw [if_pos hr]
    split_ifs with h2
    · rw [Mask.asBits_of (Mask.of_vl h2)]; rfl
    · rw [i_bit_and_eq h hw hr, Mask.unmask_of]; simp only [and_maskLane]
  · rw [if_pos hr, Mask.asBits_of rfl]; rfl

theorem i_bit_andnot_vm_eq (a : Vec w n) (f : Fin n → Bool) :
    i_bit_andnot_vm c k r a (Mask.of c k r f) = some (fun i => if f i then 0 else a i) := by
  have e : ∀ f : Fin n → Bool, Hw.maskz_mov (Hw.knot f) a = fun i => if f i then 0 else a i := by
    intro f; funext i; unfold Hw.maskz_mov Hw.knot; cases f i <;> rfl
  unfold i_bit_andnot_vm
  split
  · split_ifs with h1 h2
    · rw [Mask.asBits_of (vm_null_bits h hw hr h1)]; rfl
    · rw [Mask.asBits_of (Mask.of_vl h2), Option.map_some, e]
    · rw [i_bit_andnot_eq h hw hr, Mask.unmask_of]; simp only [andnot_maskLane]
  · rw [if_pos hr]
    split_ifs with h2
    · rw [Mask.asBits_of (Mask.of_vl h2), Option.map_some, e]
    · rw [i_bit_andnot_eq h hw hr, Mask.unmask_of]; simp only [andnot_maskLane]
  · rw [if_pos hr, Mask.asBits_of rfl, Option.map_some, e]

theorem of_bits' {k : Kind} {r : Reg} (hb : c.maskBits k w r = true) (f : Fin n → Bool) :
    (Mask.of c k r f : Mask w n) = .bits f := by unfold Mask.of; rw [if_pos hb]

theorem i_bit_and_mm_eq (f g : Fin n → Bool) :
    i_bit_and_mm c k r (Mask.of c k r f : Mask w n) (Mask.of c k r g)
      = some (Mask.of c k r (fun i => f i && g i)) := by
  unfold i_bit_and_mm
  split
  · split_ifs with h1 h2
    · have hb := Mask.of_mmNull h hw h1
      rw [Mask.asBits_of hb, Mask.asBits_of hb, of_bits' h hw hr hb]; rfl
    · have hb : c.maskBits k w .r128 = true := Mask.of_vl h2
      rw [Mask.asBits_of hb, Mask.asBits_of hb, of_bits' h hw hr hb]; rfl
    · rw [i_bit_and_eq h hw hr, Mask.unmask_of, Mask.unmask_of, Option.map_some]
      simp only [maskLane_and, i_to_mask_maskLane h hw]
  · split_ifs with h2
    · have hb : c.maskBits k w .r256 = true := Mask.of_vl h2
      rw [Mask.asBits_of hb, Mask.asBits_of hb, of_bits' h hw hr hb]; rfl
    · rw [i_bit_and_eq h hw hr, Mask.unmask_of, Mask.unmask_of, Option.map_some]
      simp only [maskLane_and, i_to_mask_maskLane h hw]
  · rw [Mask.asBits_of rfl, Mask.asBits_of rfl, of_bits' h hw hr rfl]; rfl

theorem i_bit_or_mm_eq (f g : Fin n → Bool) :
    i_bit_or_mm c k r (Mask.of c k r f : Mask w n) (Mask.of c k r g)
      = some (Mask.of c k r (fun i => f i || g i)) := by
  unfold i_bit_or_mm
  split
  · split_ifs with h1 h2
    · have hb := Mask.of_mmNull h hw h1
      rw [Mask.asBits_of hb, Mask.asBits_of hb, of_bits' h hw hr hb]; rfl
    · have hb : c.maskBits k w .r128 = true := Mask.of_vl h2
      rw [Mask.asBits_of hb, Mask.asBits_of hb, of_bits' h hw hr hb]; rfl
    · rw [i_bit_or_eq h hw hr, Mask.unmask_of, Mask.unmask_of, Option.map_some]
      simp only [maskLane_or, i_to_mask_maskLane h hw]
  · split_ifs with h2
    · have hb : c.maskBits k w .r256 = true := Mask.of_vl h2
      rw [Mask.asBits_of hb, Mask.asBits_of hb, of_bits' h hw hr hb]; rfl
    · rw [i_bit_or_eq h hw hr, Mask.unmask_of, Mask.unmask_of, Option.map_some]
      simp only [maskLane_or, i_to_mask_maskLane h hw]
  · rw [Mask.asBits_of rfl, Mask.asBits_of rfl, of_bits' h hw hr rfl]; rfl

theorem i_bit_xor_mm_eq (f g : Fin n → Bool) :
    i_bit_xor_mm c k r (Mask.of c k r f : Mask w n) (Mask.of c k r g)
      = some (Mask.of c k r (fun i => f i ^^ g i)) := by
  unfold i_bit_xor_mm
  split
  · split_ifs with h1 h2
    · have hb := Mask.of_mmNull h hw h1
      rw [Mask.asBits_of hb, Mask.asBits_of hb, of_bits' h hw hr hb]; rfl
    · have hb : c.maskBits k w .r128 = true := Mask.of_vl h2
      rw [Mask.asBits_of hb, Mask.asBits_of hb, of_bits' h hw hr hb]; rfl
    · rw [i_bit_xor_eq h hw hr, Mask.unmask_of, Mask.unmask_of, Option.map_some]
      simp only [maskLane_xor, i_to_mask_maskLane h hw]
  · split_ifs with h2
    · have hb : c.maskBits k w .r256 = true := Mask.of_vl h2
      rw [Mask.asBits_of hb, Mask.asBits_of hb, of_bits' h hw hr hb]; rfl
    · rw [i_bit_xor_eq h hw hr, Mask.unmask_of, Mask.unmask_of, Option.map_some]
      simp only [maskLane_xor, i_to_mask_maskLane h hw]
  · rw [Mask.asBits_of rfl, Mask.asBits_of rfl, of_bits' h hw hr rfl]; rfl

theorem i_bit_andnot_mm_eq (f g : Fin n → Bool) :
    i_bit_andnot_mm c k r (Mask.of c k r f : Mask w n) (Mask.of c k r g)
      = some (Mask.of c k r (fun i => f i && !g i)) := by
  have e1 : Null.bit_andnot_mm f g = fun i => f i && !g i := by
    funext i; unfold Null.bit_andnot_mm; cases f i <;> cases g i <;> rfl
  have e3 : Hw.kandn g f = fun i => f i && !g i := by
    funext i; unfold Hw.kandn; cases f i <;> cases g i <;> rfl
  unfold i_bit_andnot_mm
  split
  · split_ifs with h1 h2
    · have hb := Mask.of_mmNull h hw h1
      rw [Mask.asBits_of hb, Mask.asBits_of hb, of_bits' h hw hr hb, ← e1]; rfl
    · have hb : c.maskBits k w .r128 = true := Mask.of_vl h2
      rw [Mask.asBits_of hb, Mask.asBits_of hb, of_bits' h hw hr hb]; rfl
    · rw [i_bit_andnot_eq h hw hr, Mask.unmask_of, Mask.unmask_of, Option.map_some]
      simp only [maskLane_andnot, i_to_mask_maskLane h hw]
  · split_ifs with h2
    · have hb : c.maskBits k w .r256 = true := Mask.of_vl h2
      rw [Mask.asBits_of hb, Mask.asBits_of hb, of_bits' h hw hr hb]; rfl
    · rw [i_bit_andnot_eq h hw hr, Mask.unmask_of, Mask.unmask_of, Option.map_some]
      simp only [maskLane_andnot, i_to_mask_maskLane h hw]
  · split_ifs
    · rw [Mask.asBits_of rfl, Mask.asBits_of rfl, of_bits' h hw hr rfl]; rfl
    · rw [Mask.asBits_of rfl, Mask.asBits_of rfl, of_bits' h hw hr rfl, ← e3]; rfl

theorem i_bit_not_m_eq (f : Fin n → Bool) :
    i_bit_not_m c k r (Mask.of c k r f : Mask w n) = some (Mask.of c k r (fun i => !f i)) := by
  have e1 : Null.bit_not_mm f = fun i => !f i := by
    funext i; unfold Null.bit_not_mm; cases f i <;> rfl
  unfold i_bit_not_m
  split
  · split_ifs with h1
    · have hb := Mask.of_mmNull h hw h1
      rw [Mask.asBits_of hb, of_bits' h hw hr hb, ← e1]; rfl
    · rw [i_bit_not_eq h hw hr, Mask.unmask_of, Option.map_some]
      simp only [maskLane_not, i_to_mask_maskLane h hw]
  · split
    · split_ifs with h1 h2
      · rw [i_bit_not_eq h hw hr, Mask.unmask_of, Option.map_some]
        have : ¬ c.maskBits .int w .r256 = true := h1.2
        simp only [maskLane_not, Mask.of, if_neg this]
      · have hb : c.maskBits .int w .r256 = true := Mask.of_vl h2
        rw [Mask.asBits_of hb, of_bits' h hw hr hb]; rfl
      · cfg_absurd h
    · rw [if_pos (show c.avx = true from hr), i_bit_not_eq h hw hr, Mask.unmask_of, Option.map_some]
      simp only [maskLane_not, i_to_mask_maskLane h hw]
  · rw [Mask.asBits_of rfl, of_bits' h hw hr rfl]; rfl

end

end Simdpp
