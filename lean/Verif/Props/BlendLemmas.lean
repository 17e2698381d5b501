import Verif.Model.Blend
import Verif.Props.MaskLemmas
import Verif.Props.PairLemmas
import Mathlib.Tactic.Positivity

/-!
# Lemmas for blend, bit_select and test_bits_any
-/

namespace Simdpp
open Spec

variable {w n : Nat}

theorem sel_key {w} (x y m : BitVec w) (t : C.Ty) (hb : w ≤ t.bits) :
    C.toLane w (C.cast ⟨false, w⟩ (C.valOf t (C.bitsOf t (C.valOf t (C.bitsOf t (x.toNat : Int) &&& C.bitsOf t (m.toNat : Int))).v |||
      C.bitsOf t (C.valOf t (C.bitsOf t (y.toNat : Int) &&& C.bitsOf t (C.valOf t (~~~ C.bitsOf t (m.toNat : Int))).v)).v)))
      = (x &&& m) ||| (y &&& ~~~ m) := by
  rw [toLane_valOf t hb]
  simp only [bitsOf_valOf, bitsOf_nat]
  ext k hk
  have : k < t.bits := by omega
  simp [this, BitVec.getLsbD_eq_getElem hk]

theorem Null.bit_select_eq (hw : IsW w) (on off mask : Vec w n) :
    Null.bit_select on off mask = Hw.bsel mask on off := by
  funext i
  rcases hw with rfl | rfl | rfl | rfl
  · exact sel_key (on i) (off i) (mask i) C.int32 (by decide)
  · exact sel_key (on i) (off i) (mask i) C.int32 (by decide)
  · exact sel_key (on i) (off i) (mask i) C.uint32 (by decide)
  · exact sel_key (on i) (off i) (mask i) C.uint64 (by decide)

theorem Hw.ternlog_sel (on off mask : Vec w n) : Hw.ternlog 0xe4 on off mask = Hw.bsel mask on off := by
  funext i
  apply BitVec.eq_of_getLsbD_eq
  intro k hk
  unfold Hw.ternlog Hw.bsel
  rw [ofBits_getLsbD]
  simp only [hk, decide_true, Bool.true_and, BitVec.getLsbD_or, BitVec.getLsbD_and, BitVec.getLsbD_not]
  cases (on i).getLsbD k <;> cases (off i).getLsbD k <;> cases (mask i).getLsbD k <;> decide

theorem selAndOr_eq {c : Cfg} (h : c.Ok) {k : Kind} (hw : k.okW w) {r : Reg} (hr : c.hasVec k w r = true)
    (on off mask : Vec w n) : selAndOr c k r on off mask = some (Hw.bsel mask on off) := by
  unfold selAndOr
  rw [i_bit_and_eq h hw hr, Option.bind_eq_bind, Option.bind_some, i_bit_andnot_eq h hw hr]
  simp only [Option.bind_eq_bind, Option.bind_some]
  rw [i_bit_or_eq h hw hr]; rfl

/-- A per-lane mask vector. -/
def maskVec (w : Nat) (f : Fin n → Bool) : Vec w n := fun i => maskLane w (f i)

theorem bsel_maskVec (on off : Vec w n) (f : Fin n → Bool) :
    Hw.bsel (maskVec w f) on off = fun i => if f i then on i else off i := by
  funext i
  unfold Hw.bsel maskVec
  rw [and_maskLane, andnot_maskLane]; cases f i <;> simp

theorem blendv_maskVec (hw : 0 < w) (on off : Vec w n) (f : Fin n → Bool) :
    Hw.blendv off on (maskVec w f) = fun i => if f i then on i else off i := by
  funext i
  unfold Hw.blendv maskVec
  rw [maskLane_msb hw]

theorem Vec.bit_bsel (m a b : Vec w n) {k : Nat} (hk : k < w * n) :
    Vec.bit (Hw.bsel m a b) k = (a.bit k && m.bit k || b.bit k && !m.bit k) := by
  have hw : 0 < w := Nat.pos_of_ne_zero fun h => by subst h; simp at hk
  have hq : k / w < n := Nat.div_lt_of_lt_mul hk
  have := Nat.mod_lt k hw
  unfold Vec.bit
  rw [Vec.at_lt _ hq, Vec.at_lt _ hq, Vec.at_lt _ hq, Vec.at_lt _ hq]
  simp [Hw.bsel, this]

theorem viaBytes3_bsel (hw : IsW w) {F : Vec 8 (w * n / 8) → Vec 8 (w * n / 8) → Vec 8 (w * n / 8) → Option (Vec 8 (w * n / 8))}
    (hF : ∀ x y m, F x y m = some (Hw.bsel m x y)) (on off m : Vec w n) :
    viaBytes3 F on off m = some (Hw.bsel m on off) := by
  unfold viaBytes3
  rw [hF, Option.map_some]
  congr 1
  apply Vec.ext_bit
  intro k hk
  have hs := isW_dvd (n := n) hw
  rw [Vec.bit_recast _ (isW_pos hw) hk, Vec.bit_bsel _ _ _ (by omega), Vec.bit_bsel _ _ _ hk,
    Vec.bit_recast _ (by omega) (by omega), Vec.bit_recast _ (by omega) (by omega), Vec.bit_recast _ (by omega) (by omega)]

theorem maskLane_getLsbD (p : Bool) (k : Nat) (hk : k < w) : (maskLane w p).getLsbD k = p := by
  cases p <;> simp [maskLane, hk]

/-- The bytes of a lane mask are byte masks. -/
theorem recast_maskVec (hw : IsW w) (f : Fin n → Bool) :
    ∃ g : Fin (w * n / 8) → Bool, (maskVec w f).recast 8 (w * n / 8) = maskVec 8 g := by
  have hs := isW_dvd (n := n) hw
  have hp := isW_pos hw
  refine ⟨fun j => (maskVec w f).bit (8 * j.val), ?_⟩
  funext j
  apply BitVec.eq_of_getLsbD_eq
  intro k hk
  have hj := j.isLt
  have h1 : 8 * j.val + k < w * n := by omega
  have hq : (8 * j.val + k) / w < n := Nat.div_lt_of_lt_mul h1
  have e : (8 * j.val + k) / w = (8 * j.val) / w := by
    rcases hw with rfl | rfl | rfl | rfl <;> omega
  have h2 : (8 * j.val) / w < n := by omega
  rw [Vec.recast_getLsbD]
  simp only [maskVec]
  rw [maskLane_getLsbD _ _ hk]
  simp only [hk, decide_true, Bool.true_and, Vec.bit, Nat.mul_comm j.val 8]
  rw [Vec.at_lt _ hq, Vec.at_lt _ h2]
  show (maskLane w _).getLsbD _ = (maskLane w _).getLsbD _
  rw [maskLane_getLsbD _ _ (Nat.mod_lt _ hp), maskLane_getLsbD _ _ (Nat.mod_lt _ hp)]
  congr 1; exact Fin.ext e

section
variable {c : Cfg} (h : c.Ok)
include h

theorem i_bit_select8_eq (on off m : Vec 8 n) : i_bit_select8 c on off m = some (Hw.bsel m on off) := by
  unfold i_bit_select8
  rw [Null.bit_select_eq isW8, Hw.ternlog_sel, selAndOr_eq h (k := .int) isW8 rfl]
  split_ifs <;> first | rfl | cfg_absurd h

theorem i_bit_select_eq {k : Kind} (hw : k.okW w) {r : Reg} (hr : c.hasVec k w r = true) (on off m : Vec w n) :
    i_bit_select c k r on off m = some (Hw.bsel m on off) := by
  unfold i_bit_select
  cases k
  · have h8 := viaBytes3_bsel (n := n) (w := w) hw (fun x y m => i_bit_select8_eq h x y m)
    cases r <;> dsimp only <;> rw [Hw.ternlog_sel]
    · rw [Null.bit_select_eq hw, h8]; split_ifs <;> first | rfl | cfg_absurd h
    · rw [selAndOr_eq h (k := .int) hw hr, viaBytes3_bsel hw (fun x y m => selAndOr_eq h (k := .int) isW8 (r := .r256) (by
        have : c.avx2 = true := by by_contra hc; cfg_absurd h
        exact this) x y m)]
      split_ifs <;> first | rfl | cfg_absurd h
    · split_ifs <;> first | rfl | cfg_absurd h
  · have hw' : IsW w := by rcases hw with rfl | rfl <;> simp [IsW]
    cases r <;> dsimp only <;> rw [Hw.ternlog_sel]
    · rw [Null.bit_select_eq hw', selAndOr_eq h (k := .flt) hw hr]
      split_ifs <;> first | rfl | cfg_absurd h
    · rw [selAndOr_eq h (k := .flt) hw hr]
      split_ifs <;> first | rfl | cfg_absurd h
    · split_ifs <;> first | rfl | cfg_absurd h

theorem i_blend8_eq (on off : Vec 8 n) (f : Fin n → Bool) :
    i_blend8 c on off (maskVec 8 f) = some (Hw.bsel (maskVec 8 f) on off) := by
  unfold i_blend8
  rw [Null.bit_select_eq isW8, selAndOr_eq h (k := .int) isW8 rfl, blendv_maskVec (by omega), bsel_maskVec]
  split_ifs <;> first | rfl | cfg_absurd h

theorem viaBytes3_blend (hw : IsW w) {F : Vec 8 (w * n / 8) → Vec 8 (w * n / 8) → Vec 8 (w * n / 8) → Option (Vec 8 (w * n / 8))}
    (hF : ∀ x y f, F x y (maskVec 8 f) = some (Hw.bsel (maskVec 8 f) x y)) (on off : Vec w n) (f : Fin n → Bool) :
    viaBytes3 F on off (maskVec w f) = some (fun i => if f i then on i else off i) := by
  have := viaBytes3_bsel hw (F := fun x y m => some (Hw.bsel m x y)) (fun _ _ _ => rfl) on off (maskVec w f)
  rw [bsel_maskVec] at this
  rw [← this]
  unfold viaBytes3
  obtain ⟨g, hg⟩ := recast_maskVec hw f
  rw [hg, hF]

theorem i_blend_eq {k : Kind} (hw : k.okW w) {r : Reg} (hr : c.hasVec k w r = true) (on off : Vec w n) (f : Fin n → Bool) :
    i_blend c k r on off (maskVec w f) = some (fun i => if f i then on i else off i) := by
  unfold i_blend
  cases k
  · have h8 := viaBytes3_blend (n := n) (w := w) h hw (fun x y f => i_blend8_eq h x y f) on off f
    cases r <;> dsimp only
    · rw [Null.bit_select_eq hw, h8, bsel_maskVec]; split_ifs <;> first | rfl | cfg_absurd h
    · rw [viaBytes3_blend h hw (F := fun x y m => some (Hw.blendv y x m)) (fun x y f => by
        rw [blendv_maskVec (by omega), bsel_maskVec])]
      split_ifs <;> first | rfl | cfg_absurd h
    · rw [Hw.ternlog_sel, bsel_maskVec]
      split_ifs <;> first | rfl | cfg_absurd h
  · have hw' : IsW w := by rcases hw with rfl | rfl <;> simp [IsW]
    cases r <;> dsimp only
    · rw [Null.bit_select_eq hw', selAndOr_eq h (k := .flt) hw hr, bsel_maskVec, blendv_maskVec (isW_pos hw')]
      split_ifs <;> first | rfl | cfg_absurd h
    · rw [selAndOr_eq h (k := .flt) hw hr, bsel_maskVec, blendv_maskVec (isW_pos hw')]
      split_ifs <;> first | rfl | cfg_absurd h
    · rw [Hw.ternlog_sel, bsel_maskVec]
      split_ifs <;> first | rfl | cfg_absurd h

theorem vmNull_bits {k : Kind} (hw : k.okW w) (hn : c.vmNull k w = true) : c.maskBits k w .r128 = true := by
  apply Mask.of_mmNull h hw
  revert hn
  unfold Cfg.vmNull Cfg.mmNull
  cases k
  · exact id
  · dsimp only; split_ifs <;> simp <;> intros <;> simp [*]

theorem i_blend_vm_eq {k : Kind} (hw : k.okW w) {r : Reg} (hr : c.hasVec k w r = true) (on off : Vec w n) (f : Fin n → Bool) :
    i_blend_vm c k r on off (Mask.of c k r f) = some (fun i => if f i then on i else off i) := by
  unfold i_blend_vm
  have hu : (Mask.of c k r f : Mask w n).unmask = maskVec w f := Mask.unmask_of ..
  cases r <;> dsimp only
  · split_ifs with h1 h2
    · rw [Mask.asBits_of (vmNull_bits h hw h1)]; rfl
    · rw [Mask.asBits_of (Mask.of_vl h2)]; rfl
    · rw [hu, i_blend_eq h hw hr]
  · rw [if_pos hr]
    split_ifs with h2
    · rw [Mask.asBits_of (Mask.of_vl h2)]; rfl
    · rw [hu, i_blend_eq h hw hr]
  · rw [if_pos hr, Mask.asBits_of rfl]; rfl

theorem i_bit_select_vm_eq {k : Kind} (hw : k.okW w) {r : Reg} (hr : c.hasVec k w r = true) (on off : Vec w n) (f : Fin n → Bool) :
    i_bit_select_vm c k r on off (Mask.of c k r f) = some (fun i => if f i then on i else off i) := by
  unfold i_bit_select_vm
  have hu : (Mask.of c k r f : Mask w n).unmask = maskVec w f := Mask.unmask_of ..
  cases r <;> dsimp only
  · split_ifs with h1 h2
    · rw [Mask.asBits_of (vmNull_bits h hw h1)]; rfl
    · rw [Mask.asBits_of (Mask.of_vl h2.1)]; rfl
    · rw [hu, i_bit_select_eq h hw hr, bsel_maskVec]
  · rw [if_pos hr]
    split_ifs with h2
    · rw [Mask.asBits_of (Mask.of_vl h2)]; rfl
    · rw [hu, i_bit_select_eq h hw hr, bsel_maskVec]
  · rw [if_pos hr, Mask.asBits_of rfl]; rfl

omit h in
theorem kSel_eq (f g m : Fin n → Bool) : kSel f g m = fun i => if m i then f i else g i := by
  funext i; unfold kSel Hw.kor Hw.kand Hw.knot; cases m i <;> simp
omit h in
theorem kSel2_eq (f g m : Fin n → Bool) : Hw.kor (Hw.kand f m) (Hw.kandn m g) = fun i => if m i then f i else g i := by
  funext i; unfold Hw.kor Hw.kand Hw.kandn; cases m i <;> simp
omit h in
theorem if_maskVec (f g m : Fin n → Bool) :
    (fun i => if m i then maskVec w f i else maskVec w g i) = fun i => maskLane w (if m i then f i else g i) := by
  funext i; unfold maskVec; cases m i <;> rfl

theorem i_blend_mm_eq {k : Kind} (hw : k.okW w) {r : Reg} (hr : c.hasVec k w r = true) (f g m : Fin n → Bool) :
    i_blend_mm c k r (Mask.of c k r f : Mask w n) (Mask.of c k r g) (Mask.of c k r m) =
      some (Mask.of c k r (fun i => if m i then f i else g i)) := by
  have hu : ∀ f, (Mask.of c k r f : Mask w n).unmask = maskVec w f := fun f => Mask.unmask_of ..
  unfold i_blend_mm
  cases r <;> dsimp only
  · split_ifs with h1 h2
    · have hb := Mask.of_mmNull h hw h1
      simp only [Mask.asBits_of hb, of_bits' h hw hr hb]; rfl
    · have hb : c.maskBits k w .r128 = true := Mask.of_vl h2
      simp only [Mask.asBits_of hb, of_bits' h hw hr hb, Mask.asBits, Option.bind_eq_bind, Option.bind_some, kSel_eq]
    · simp only [hu]; rw [i_blend_eq h hw hr, if_maskVec, Option.map_some, i_to_mask_maskLane h hw]
  · split_ifs with h2
    · have hb : c.maskBits k w .r256 = true := Mask.of_vl h2
      simp only [Mask.asBits_of hb, of_bits' h hw hr hb, Mask.asBits, Option.bind_eq_bind, Option.bind_some, kSel_eq]
    · simp only [hu]; rw [i_blend_eq h hw hr, if_maskVec, Option.map_some, i_to_mask_maskLane h hw]
  · have hb : c.maskBits k w .r512 = true := rfl
    simp only [of_bits' h hw hr hb, Mask.asBits, Option.bind_eq_bind, Option.bind_some, kSel_eq, kSel2_eq]
    split_ifs <;> rfl

theorem i_bit_select_mm_eq {k : Kind} (hw : k.okW w) {r : Reg} (hr : c.hasVec k w r = true) (f g m : Fin n → Bool) :
    i_bit_select_mm c k r (Mask.of c k r f : Mask w n) (Mask.of c k r g) (Mask.of c k r m) =
      some (Mask.of c k r (fun i => if m i then f i else g i)) := by
  have hu : ∀ f, (Mask.of c k r f : Mask w n).unmask = maskVec w f := fun f => Mask.unmask_of ..
  unfold i_bit_select_mm
  cases r <;> dsimp only
  · split_ifs with h1 h2
    · have hb := Mask.of_mmNull h hw h1
      simp only [Mask.asBits_of hb, of_bits' h hw hr hb]; rfl
    · have hb : c.maskBits k w .r128 = true := Mask.of_vl h2
      simp only [Mask.asBits_of hb, of_bits' h hw hr hb, Mask.asBits, Option.bind_eq_bind, Option.bind_some, kSel_eq]
    · simp only [hu]; rw [i_bit_select_eq h hw hr, bsel_maskVec, if_maskVec, Option.map_some, i_to_mask_maskLane h hw]
  · split_ifs with h2
    · have hb : c.maskBits k w .r256 = true := Mask.of_vl h2
      simp only [Mask.asBits_of hb, of_bits' h hw hr hb, Mask.asBits, Option.bind_eq_bind, Option.bind_some, kSel_eq]
    · simp only [hu]; rw [i_bit_select_eq h hw hr, bsel_maskVec, if_maskVec, Option.map_some, i_to_mask_maskLane h hw]
  · have hb : c.maskBits k w .r512 = true := rfl
    simp only [of_bits' h hw hr hb, Mask.asBits, Option.bind_eq_bind, Option.bind_some, kSel_eq, kSel2_eq]
    split_ifs <;> rfl

end

/-! ### test_bits_any -/

theorem or_step (r x : BitVec w) (hw : IsW w) :
    C.cast ⟨false, w⟩ (C.bor ⟨⟨false, w⟩, (r.toNat : Int)⟩ (C.lane false x)) = ⟨⟨false, w⟩, ((r ||| x).toNat : Int)⟩ := by
  have key : ∀ t : C.Ty, w ≤ t.bits → C.cast ⟨false, w⟩ (C.valOf t (C.bitsOf t (r.toNat : Int) ||| C.bitsOf t (x.toNat : Int)))
      = ⟨⟨false, w⟩, ((r ||| x).toNat : Int)⟩ := by
    intro t hb
    have e := or_key r x t hb
    have : (C.cast ⟨false, w⟩ (C.valOf t (C.bitsOf t (r.toNat : Int) ||| C.bitsOf t (x.toNat : Int)))).v
        = ((r ||| x).toNat : Int) := by
      rw [← e]
      unfold C.toLane C.cast C.wrap
      simp only [Bool.false_eq_true, if_false]
      rw [BitVec.toNat_ofInt]
      have h2 : (0:Int) < 2 ^ w := by positivity
      have := Int.emod_nonneg (C.valOf t (C.bitsOf t (r.toNat : Int) ||| C.bitsOf t (x.toNat : Int))).v (b := (2:Int)^w) (by omega)
      have h3 := Int.emod_lt_of_pos (C.valOf t (C.bitsOf t (r.toNat : Int) ||| C.bitsOf t (x.toNat : Int))).v h2
      push_cast
      rw [Int.emod_emod_of_dvd _ (dvd_refl _)]
      omega
    exact congrArg (C.Val.mk ⟨false, w⟩) this
  exact key _ (usual_bits hw)

theorem Null.test_bits_any_eq (hw : IsW w) (a : Vec w n) : Null.test_bits_any a = decide (∃ i, a i ≠ 0) := by
  have fold : ∀ (l : List (Fin n)) (r : BitVec w),
      l.foldl (fun (r : C.Val) i => C.cast ⟨false, w⟩ (C.bor r (C.lane false (a i)))) ⟨⟨false, w⟩, (r.toNat : Int)⟩
        = ⟨⟨false, w⟩, ((l.foldl (fun r i => r ||| a i) r).toNat : Int)⟩ := by
    intro l
    induction l with
    | nil => intro r; rfl
    | cons x l ih => intro r; rw [List.foldl_cons, or_step r (a x) hw, ih]; rfl
  have fold2 : ∀ (l : List (Fin n)) (r : BitVec w),
      l.foldl (fun r i => r ||| a i) r = 0 ↔ r = 0 ∧ ∀ i ∈ l, a i = 0 := by
    intro l
    induction l with
    | nil => intro r; simp
    | cons x l ih => intro r; rw [List.foldl_cons, ih]; simp [BitVec.or_eq_zero_iff, and_assoc]
  unfold Null.test_bits_any
  have f0 := fold (List.finRange n) 0
  rw [show (((0 : BitVec w).toNat : Nat) : Int) = 0 by simp] at f0
  simp only
  rw [f0]
  have e : C.eq ⟨⟨false, w⟩, (((List.finRange n).foldl (fun r i => r ||| a i) (0 : BitVec w)).toNat : Int)⟩ ⟨C.int32, 0⟩
      = decide ((List.finRange n).foldl (fun r i => r ||| a i) (0 : BitVec w) = 0) := by
    generalize (List.finRange n).foldl (fun r i => r ||| a i) (0 : BitVec w) = x
    have hx := x.isLt
    have e0 : (x = 0) ↔ x.toNat = 0 := by rw [← BitVec.toNat_inj]; simp
    have gen : ∀ t : C.Ty, C.usual ⟨false, w⟩ C.int32 = t → (C.wrap t (x.toNat : Int) = C.wrap t 0 ↔ x.toNat = 0) →
        C.eq ⟨⟨false, w⟩, (x.toNat : Int)⟩ ⟨C.int32, 0⟩ = decide (x = 0) := by
      intro t ht hh
      unfold C.eq
      dsimp only
      rw [ht, decide_eq_decide, hh, e0]
    rcases hw with rfl | rfl | rfl | rfl
    · refine gen C.int32 (by decide) ?_
      simp only [C.wrap, C.int32, if_true, Int.bmod]; omega
    · refine gen C.int32 (by decide) ?_
      simp only [C.wrap, C.int32, if_true, Int.bmod]; omega
    · refine gen C.uint32 (by decide) ?_
      simp only [C.wrap, C.uint32, Bool.false_eq_true, if_false]; omega
    · refine gen C.uint64 (by decide) ?_
      simp only [C.wrap, C.uint64, Bool.false_eq_true, if_false]; omega
  rw [e, ← decide_not]
  congr 1
  rw [fold2]
  apply propext
  simp

theorem or0 (x y : BitVec w) : x ||| y = 0 ↔ x = 0 ∧ y = 0 := BitVec.or_eq_zero_iff

/-- A vector is nonzero iff some bit is set, whatever the lane size. -/
theorem ne_zero_iff_bit (hw : 0 < w) (a : Vec w n) : (∃ i, a i ≠ 0) ↔ ∃ k, k < w * n ∧ a.bit k = true := by
  constructor
  · rintro ⟨i, hi⟩
    have : ∃ k, k < w ∧ (a i).getLsbD k = true := by
      by_contra hc
      push Not at hc
      apply hi
      apply BitVec.eq_of_getLsbD_eq
      intro k hk
      simpa using hc k hk
    obtain ⟨k, hk, hb⟩ := this
    refine ⟨i.val * w + k, ?_, ?_⟩
    · have := i.isLt
      calc i.val * w + k < w * (i.val + 1) := by rw [Nat.mul_add, Nat.mul_comm]; omega
        _ ≤ w * n := Nat.mul_le_mul_left _ this
    · rw [Vec.bit_eq _ _ hk, hb]
  · rintro ⟨k, hk, hb⟩
    have hq : k / w < n := Nat.div_lt_of_lt_mul hk
    refine ⟨⟨k / w, hq⟩, fun h0 => ?_⟩
    unfold Vec.bit at hb
    rw [Vec.at_lt _ hq, h0] at hb
    simp at hb

theorem recast_ne_zero {v m : Nat} (hw : 0 < w) (hv : 0 < v) (hs : v * m = w * n) (a : Vec w n) :
    (∃ i, a.recast v m i ≠ 0) ↔ ∃ i, a i ≠ 0 := by
  rw [ne_zero_iff_bit hw, ne_zero_iff_bit hv]
  constructor
  · rintro ⟨k, hk, hb⟩; exact ⟨k, by omega, by rwa [Vec.bit_recast _ hv hk] at hb⟩
  · rintro ⟨k, hk, hb⟩; exact ⟨k, by omega, by rwa [Vec.bit_recast _ hv (by omega)]⟩

section
variable {c : Cfg} (h : c.Ok)
include h

theorem i_test_bits_any32_eq (a : Vec 32 4) : i_test_bits_any32 c a = some (decide (∃ i, a i ≠ 0)) := by
  unfold i_test_bits_any32
  rw [Null.test_bits_any_eq (by simp [IsW])]
  split_ifs
  · rfl
  · rfl
  · simp only [Hw.movemaskAllEq0, ← decide_not]
    congr 2
    apply propext
    rw [not_forall]
    refine exists_congr fun i => ?_
    by_cases e : a i = 0
    · simp only [e, if_true, BitVec.msb_allOnes (show 0 < 32 by omega), not_true_eq_false, ne_eq]
    · simp only [e, if_false, ne_eq, not_false_eq_true]; simp
  · dsimp only
    rw [i_bit_or_eq h (k := .int) (w := 64) (by simp [Kind.okW, IsW]) rfl]
    simp only [Option.bind_eq_bind, Option.bind_some]
    have e := recast_ne_zero (v := 64) (m := 2) (by omega) (by omega) (by omega) a
    congr 2
    apply propext
    rw [← e]
    generalize a.recast 64 2 = b
    rw [Vec.at_lt _ (show 0 < 2 by omega)]
    simp only [Hw.laneShr, Vec.at_lt b (show 0 + 1 < 2 by omega), ne_eq, or0]
    constructor
    · intro hc
      by_contra hh; push Not at hh; exact hc ⟨hh _, hh _⟩
    · rintro ⟨i, hi⟩ ⟨h1, h2⟩
      obtain rfl | rfl : i = ⟨0, by omega⟩ ∨ i = ⟨1, by omega⟩ := by
        rcases i with ⟨i, hi⟩; simp only [Fin.mk.injEq]; omega
      · exact hi h1
      · exact hi h2
  · rw [i_bit_or_eq h (k := .int) (by simp [Kind.okW, IsW]) rfl]
    simp only [Option.bind_eq_bind, Option.bind_some]
    rw [i_bit_or_eq h (k := .int) (by simp [Kind.okW, IsW]) rfl]
    simp only [Option.bind_some]
    congr 2
    apply propext
    rw [Vec.at_lt _ (show 0 < 4 by omega)]
    have p0 : ∀ b : Vec 32 4, b.at_ (0 + 1) = b ⟨1, by omega⟩ := fun b => rfl
    have p1 : ∀ b : Vec 32 4, b.at_ (0 + 2) = b ⟨2, by omega⟩ := fun b => rfl
    have p2 : ∀ b : Vec 32 4, b.at_ (1 + 2) = b ⟨3, by omega⟩ := fun b => rfl
    simp only [Hw.laneShr, ne_eq, or0, p0, p1, p2]
    constructor
    · intro hc
      by_contra hh; push Not at hh; exact hc ⟨⟨hh _, hh _⟩, hh _, hh _⟩
    · rintro ⟨i, hi⟩ ⟨⟨h1, h2⟩, h3, h4⟩
      rcases i with ⟨i, hi'⟩
      obtain rfl | rfl | rfl | rfl : i = 0 ∨ i = 1 ∨ i = 2 ∨ i = 3 := by omega
      · exact hi h1
      · exact hi h3
      · exact hi h2
      · exact hi h4
  · unfold Hw.anyGtZero
    congr 2; apply propext; refine exists_congr fun i => ?_
    rw [ne_eq, ← BitVec.toNat_inj]; simp; omega
  · rfl
  · cfg_absurd h

theorem i_test_bits_any_eq {k : Kind} (hw : k.okW w) {r : Reg} (hr : c.hasVec k w r = true)
    (hs : r = .r128 → w * n = 128) (a : Vec w n) :
    i_test_bits_any c k r a = some (decide (∃ i, a i ≠ 0)) := by
  have hw' : IsW w := by cases k <;> [exact hw; (rcases hw with rfl | rfl <;> simp [IsW])]
  have hg : Hw.anyGtZero a = decide (∃ i, a i ≠ 0) := by
    unfold Hw.anyGtZero
    congr 1; apply propext; refine exists_congr fun i => ?_
    rw [ne_eq, ← BitVec.toNat_inj]; simp; omega
  unfold i_test_bits_any
  rw [hg, Null.test_bits_any_eq hw', i_test_bits_any32_eq h]
  cases r
  · have e : decide (∃ i, a.recast 32 4 i ≠ 0) = decide (∃ i, a i ≠ 0) := by
      congr 1; exact propext (recast_ne_zero (isW_pos hw') (by omega) (by have := hs rfl; omega) a)
    rw [e]
    cases k <;> dsimp only <;> split_ifs <;> rfl
  · cases k <;> dsimp only <;> rw [if_pos hr] <;> rfl
  · cases k <;> dsimp only <;> rw [if_pos hr] <;> rfl

theorem i_test_bits_any_long_eq {k : Kind} (hw : k.okW w) {r : Reg} (hr : c.hasVec k w r = true)
    (hs : r = .r128 → w * n = 128) {K : Nat} (a : Fin (K + 1) → Vec w n) :
    i_test_bits_any_long c k r a = some (decide (∃ j i, a j i ≠ 0)) := by
  unfold i_test_bits_any_long
  have fold : ∀ (l : List (Fin K)) (v : Vec w n), ∃ u : Vec w n,
      l.foldlM (fun v i => i_bit_or c k r v (a i.succ)) v = some u ∧
      ∀ i, u i = 0 ↔ (v i = 0 ∧ ∀ j ∈ l, a j.succ i = 0) := by
    intro l
    induction l with
    | nil => intro v; exact ⟨v, rfl, by simp⟩
    | cons x l ih =>
      intro v
      obtain ⟨u, h1, h2⟩ := ih (fun i => v i ||| a x.succ i)
      refine ⟨u, ?_, fun i => ?_⟩
      · rw [List.foldlM_cons, i_bit_or_eq h hw hr]; exact h1
      · rw [h2]; simp [BitVec.or_eq_zero_iff, and_assoc]
  obtain ⟨u, h1, h2⟩ := fold (List.finRange K) (a 0)
  rw [h1, Option.bind_eq_bind, Option.bind_some, i_test_bits_any_eq h hw hr hs]
  congr 2
  apply propext
  constructor
  · rintro ⟨i, hi⟩
    by_contra hc; push Not at hc
    exact hi ((h2 i).2 ⟨hc _ _, fun j _ => hc _ _⟩)
  · rintro ⟨j, i, hi⟩
    refine ⟨i, fun h0 => hi ?_⟩
    obtain ⟨e0, e1⟩ := (h2 i).1 h0
    cases j using Fin.cases with
    | zero => exact e0
    | succ j => exact e1 j (List.mem_finRange j)

end

end Simdpp
