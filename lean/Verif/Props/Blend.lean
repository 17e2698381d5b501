import Verif.Props.BlendLemmas
import Verif.Props.Compare

/-!
# C14 blend / bit_select, C15 test_bits_any
-/

namespace Simdpp
open Spec

variable {w n : Nat}

section
variable {c : Cfg} (h : c.Ok) {k : Kind} (hw : k.okW w) {r : Reg} (hr : c.hasVec k w r = true)
include h hw hr

/-- C14: `bit_select(on, off, mask)` with a vector mask takes every single bit from `on` where the
mask bit is set, from `off` where it is clear, for arbitrary masks. -/
theorem C14_bit_select (on off mask : Vec w n) :
    ∃ res, i_bit_select c k r on off mask = some res ∧
      ∀ i b, b < w → (res i).getLsbD b =
        if (mask i).getLsbD b then (on i).getLsbD b else (off i).getLsbD b := by
  refine ⟨_, i_bit_select_eq h hw hr on off mask, fun i b hb => ?_⟩
  simp only [Hw.bsel, BitVec.getLsbD_or, BitVec.getLsbD_and, BitVec.getLsbD_not, hb, decide_true, Bool.true_and]
  cases (mask i).getLsbD b <;> simp

/-- C14: `blend(on, off, mask)` with a vector mask whose lanes are all ones or all zeros takes
each lane of `on` where the mask lane is set, of `off` elsewhere. -/
theorem C14_blend (on off mask : Vec w n) (hm : ∀ i, mask i = BitVec.allOnes w ∨ mask i = 0) :
    ∃ res, i_blend c k r on off mask = some res ∧
      ∀ i, res i = if mask i = BitVec.allOnes w then on i else off i := by
  have hp : 0 < w := by
    cases k <;> [exact isW_pos hw; (rcases hw with rfl | rfl <;> omega)]
  have e : mask = maskVec w (fun i => decide (mask i = BitVec.allOnes w)) := by
    funext i
    unfold maskVec maskLane
    rcases hm i with e | e
    · simp [e]
    · rw [e, if_neg]
      simp only [decide_eq_true_eq]
      intro e'
      rw [e] at e'
      have e1 := congrArg (BitVec.getLsbD · 0) e'
      simp [hp] at e1
  refine ⟨fun i => if mask i = BitVec.allOnes w then on i else off i, ?_, fun i => rfl⟩
  have h1 := i_blend_eq h hw hr on off (fun i => decide (mask i = BitVec.allOnes w))
  rw [← e] at h1
  rw [h1]; simp only [decide_eq_true_eq]

/-- C14: `blend` and `bit_select` agree on lane masks. -/
theorem C14_blend_eq_bit_select (on off mask : Vec w n) (hm : ∀ i, mask i = BitVec.allOnes w ∨ mask i = 0) :
    i_blend c k r on off mask = i_bit_select c k r on off mask := by
  obtain ⟨r1, h1, e1⟩ := C14_blend h hw hr on off mask hm
  rw [h1, i_bit_select_eq h hw hr]
  congr 1
  funext i
  rw [e1]
  rcases hm i with e | e
  · rw [if_pos e]; simp [Hw.bsel, e]
  · by_cases e' : mask i = BitVec.allOnes w
    · rw [if_pos e']; simp [Hw.bsel, e']
    · rw [if_neg e']; simp [Hw.bsel, e]

/-- C14 with a mask-typed selector produced by any mask operation. -/
theorem C14_blend_vm (on off : Vec w n) (f : Fin n → Bool) :
    (∃ res, i_blend_vm c k r on off (Mask.of c k r f) = some res ∧ ∀ i, res i = if f i then on i else off i) ∧
    (∃ res, i_bit_select_vm c k r on off (Mask.of c k r f) = some res ∧ ∀ i, res i = if f i then on i else off i) :=
  ⟨⟨_, i_blend_vm_eq h hw hr on off f, fun _ => rfl⟩, ⟨_, i_bit_select_vm_eq h hw hr on off f, fun _ => rfl⟩⟩

/-- C14 on three masks. -/
theorem C14_blend_mm (f g m : Fin n → Bool) :
    (∃ res, i_blend_mm c k r (Mask.of c k r f : Mask w n) (Mask.of c k r g) (Mask.of c k r m) = some res ∧
      ∀ i, res.unmask i = maskLane w (if m i then f i else g i)) ∧
    (∃ res, i_bit_select_mm c k r (Mask.of c k r f : Mask w n) (Mask.of c k r g) (Mask.of c k r m) = some res ∧
      ∀ i, res.unmask i = maskLane w (if m i then f i else g i)) :=
  ⟨⟨_, i_blend_mm_eq h hw hr f g m, fun _ => by rw [Mask.unmask_of]⟩,
   ⟨_, i_bit_select_mm_eq h hw hr f g m, fun _ => by rw [Mask.unmask_of]⟩⟩

/-- C14 on long vectors, the mask being a long mask. -/
theorem C14_blend_vm_long {K : Nat} (on off : Fin K → Vec w n) (f : Fin K → Fin n → Bool) (d : Fin K → Vec w n) :
    ∃ res, Arr.apply3 (i_blend_vm c k r) on off (fun j => Mask.of c k r (f j)) 0 d = some res ∧
      ∀ j, Arr.flat res j = if Arr.flat f j then Arr.flat on j else Arr.flat off j := by
  refine ⟨_, Arr.apply3_spec _ on off _ (fun j i => if f j i then on j i else off j i)
    (fun j => i_blend_vm_eq h hw hr (on j) (off j) (f j)) 0 d, fun j => by simp [Arr.flat]; rfl⟩

/-- C14, `bit_select` on long vectors. -/
theorem C14_bit_select_long {K : Nat} (on off m : Fin K → Vec w n) (d : Fin K → Vec w n) :
    ∃ res, Arr.apply3 (i_bit_select c k r) on off m 0 d = some res ∧
      ∀ j b, b < w → (Arr.flat res j).getLsbD b =
        if (Arr.flat m j).getLsbD b then (Arr.flat on j).getLsbD b else (Arr.flat off j).getLsbD b := by
  obtain ⟨res, h1, h2⟩ := C25_apply3 (i_bit_select c k r) (fun x y m => (x &&& m) ||| (y &&& ~~~ m))
    (i_bit_select_eq h hw hr) on off m d
  refine ⟨res, h1, fun j b hb => ?_⟩
  rw [h2]
  simp only [BitVec.getLsbD_or, BitVec.getLsbD_and, BitVec.getLsbD_not, hb, decide_true, Bool.true_and]
  cases (Arr.flat m j).getLsbD b <;> simp

/-- C15: `test_bits_any` is true iff some bit of some lane is set. -/
theorem C15_test_bits_any (hs : r = .r128 → w * n = 128) (a : Vec w n) :
    ∃ b, i_test_bits_any c k r a = some b ∧ (b = true ↔ ∃ i j, (a i).getLsbD j = true) := by
  refine ⟨_, i_test_bits_any_eq h hw hr hs a, ?_⟩
  rw [decide_eq_true_iff]
  refine exists_congr fun i => ⟨fun hne => ?_, fun ⟨j, hj⟩ h0 => by rw [h0] at hj; simp at hj⟩
  by_contra hc; push Not at hc
  exact hne (BitVec.eq_of_getLsbD_eq fun j _ => by simpa using hc j)

/-- C15 on vectors of any length. -/
theorem C15_test_bits_any_long (hs : r = .r128 → w * n = 128) {K : Nat} (a : Fin (K + 1) → Vec w n) :
    ∃ b, i_test_bits_any_long c k r a = some b ∧ (b = true ↔ ∃ j i t, (a j i).getLsbD t = true) := by
  refine ⟨_, i_test_bits_any_long_eq h hw hr hs a, ?_⟩
  rw [decide_eq_true_iff]
  refine exists_congr fun j => exists_congr fun i => ⟨fun hne => ?_, fun ⟨t, hj⟩ h0 => by rw [h0] at hj; simp at hj⟩
  by_contra hc; push Not at hc
  exact hne (BitVec.eq_of_getLsbD_eq fun t _ => by simpa using hc t)

end

/-! ### blend after compare: the usual select idiom, end to end -/

/-- C14: `blend(a, b, cmp_gt(a, b))` is the lane-wise maximum. -/
theorem C14_select_gt {c : Cfg} (h : c.Ok) (hw : IsW w) {r : Reg} (hr : c.hasInt w r = true) (s : Bool)
    (hs : cmpSupported c .gt w r) (hn : w = 64 → n % 2 = 0) (a b : Vec w n) :
    ∃ m res, cmpInt c .gt s r a b = some m ∧ i_blend_vm c .int r a b m = some res ∧
      ∀ i, val s (res i) = max (val s (a i)) (val s (b i)) := by
  refine ⟨_, _, cmpInt_eq h hw hr .gt s hs hn a b, i_blend_vm_eq h (k := .int) hw hr a b _, fun i => ?_⟩
  simp only [Rel.onInt, decide_eq_true_eq]
  split_ifs <;> omega

/-! ### examples -/

/-- A mask that is no lane mask: `bit_select` mixes bits inside the lane on SSE2. -/
example : ∃ res, i_bit_select Cfg.sse2Only .int .r128 (fun _ : Fin 4 => 0xffffffff#32) (fun _ => 0#32)
    (fun _ => 0x0f0f00ff#32) = some res ∧ ∀ i b, b < 32 → (res i).getLsbD b = (0x0f0f00ff#32).getLsbD b := by
  obtain ⟨res, h1, h2⟩ := C14_bit_select Cfg.sse2Only_ok (k := .int) (r := .r128) (Or.inr (Or.inr (Or.inl rfl))) rfl
    (fun _ : Fin 4 => 0xffffffff#32) (fun _ => 0#32) (fun _ => 0x0f0f00ff#32)
  refine ⟨res, h1, fun i b hb => ?_⟩
  rw [h2 i b hb]
  interval_cases b <;> decide

/-- A register with a single bit set in its last lane is detected on NEON. -/
example : ∃ b, i_test_bits_any Cfg.neonA64 .int .r128 (fun i : Fin 16 => if i.val = 15 then 128#8 else 0) = some b ∧
    b = true := by
  obtain ⟨b, h1, h2⟩ := C15_test_bits_any Cfg.neonA64_ok (k := .int) (r := .r128) (Or.inl rfl) rfl (fun _ => rfl)
    (fun i : Fin 16 => if i.val = 15 then 128#8 else 0)
  exact ⟨b, h1, h2.2 ⟨15, 7, by decide⟩⟩

end Simdpp
