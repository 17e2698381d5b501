import Verif.Props.MaskLemmas
import Verif.Props.Arith

/-!
# C12 bitwise operations, C30 masks
-/

namespace Simdpp
open Spec

variable {w n : Nat} {c : Cfg}

section vec
variable (h : c.Ok) {k : Kind} (hw : k.okW w) {r : Reg} (hr : c.hasVec k w r = true)
include h hw hr

/-- C12: bit `b` of lane `i` of `bit_and(x, y)`. -/
theorem C12_and (x y : Vec w n) :
    ∃ res, i_bit_and c k r x y = some res ∧
      ∀ i b, (res i).getLsbD b = ((x i).getLsbD b && (y i).getLsbD b) :=
  ⟨_, i_bit_and_eq h hw hr x y, fun _ _ => BitVec.getLsbD_and⟩

/-- C12: `bit_or`. -/
theorem C12_or (x y : Vec w n) :
    ∃ res, i_bit_or c k r x y = some res ∧
      ∀ i b, (res i).getLsbD b = ((x i).getLsbD b || (y i).getLsbD b) :=
  ⟨_, i_bit_or_eq h hw hr x y, fun _ _ => BitVec.getLsbD_or⟩

/-- C12: `bit_xor`. -/
theorem C12_xor (x y : Vec w n) :
    ∃ res, i_bit_xor c k r x y = some res ∧
      ∀ i b, (res i).getLsbD b = ((x i).getLsbD b ^^ (y i).getLsbD b) :=
  ⟨_, i_bit_xor_eq h hw hr x y, fun _ _ => BitVec.getLsbD_xor⟩

/-- C12: `bit_andnot(x, y)` clears in `x` the bits set in `y`. -/
theorem C12_andnot (x y : Vec w n) :
    ∃ res, i_bit_andnot c k r x y = some res ∧
      ∀ i b, (res i).getLsbD b = ((x i).getLsbD b && !(y i).getLsbD b) :=
  ⟨_, i_bit_andnot_eq h hw hr x y, fun i b => by
    rw [BitVec.getLsbD_and, BitVec.getLsbD_not]
    by_cases hb : b < w
    · simp [hb]
    · rw [BitVec.getLsbD_of_ge (x i) b (by omega)]; simp⟩

/-- C12: `bit_not`. -/
theorem C12_not (x : Vec w n) :
    ∃ res, i_bit_not c k r x = some res ∧
      ∀ i b, b < w → (res i).getLsbD b = !(x i).getLsbD b :=
  ⟨_, i_bit_not_eq h hw hr x, fun i b hb => by rw [BitVec.getLsbD_not]; simp [hb]⟩

/-- C12: De Morgan, as an identity between API calls. -/
theorem C12_deMorgan (x y : Vec w n) :
    (i_bit_and c k r x y).bind (i_bit_not c k r) =
      (do i_bit_or c k r (← i_bit_not c k r x) (← i_bit_not c k r y)) := by
  rw [i_bit_and_eq h hw hr, Option.bind_some, i_bit_not_eq h hw hr, i_bit_not_eq h hw hr,
    i_bit_not_eq h hw hr]
  show _ = i_bit_or c k r _ _
  rw [i_bit_or_eq h hw hr]
  exact congrArg some (funext fun i => BitVec.not_and)

/-- C12: `bit_andnot(x, y) = bit_and(x, bit_not(y))`. -/
theorem C12_andnot_eq (x y : Vec w n) :
    i_bit_andnot c k r x y = (i_bit_not c k r y).bind (i_bit_and c k r x) := by
  rw [i_bit_andnot_eq h hw hr, i_bit_not_eq h hw hr, Option.bind_some, i_bit_and_eq h hw hr]

/-- C12: `bit_xor` with itself undoes. -/
theorem C12_xor_cancel (x y : Vec w n) :
    (i_bit_xor c k r x y).bind (fun t => i_bit_xor c k r t y) = some x := by
  rw [i_bit_xor_eq h hw hr, Option.bind_some, i_bit_xor_eq h hw hr]
  exact congrArg some (funext fun i => by
    show x i ^^^ y i ^^^ y i = x i
    rw [BitVec.xor_assoc, BitVec.xor_self, BitVec.xor_zero])

/-- C12: a mask operand acts as the all-ones/all-zeros vector. `f` is the lane predicate the
mask stands for. -/
theorem C12_and_mask (x : Vec w n) (f : Fin n → Bool) :
    ∃ res, i_bit_and_vm c k r x (Mask.of c k r f) = some res ∧
      ∀ i b, (res i).getLsbD b = ((x i).getLsbD b && (maskLane w (f i)).getLsbD b) :=
  ⟨_, i_bit_and_vm_eq h hw hr x f, fun i b => by
    rw [← and_maskLane, BitVec.getLsbD_and]⟩

theorem C12_andnot_mask (x : Vec w n) (f : Fin n → Bool) :
    ∃ res, i_bit_andnot_vm c k r x (Mask.of c k r f) = some res ∧
      ∀ i, res i = if f i then 0 else x i :=
  ⟨_, i_bit_andnot_vm_eq h hw hr x f, fun _ => rfl⟩

/-- C12, long vectors: bit `b` of flat lane `j`. -/
theorem C12_and_long {K L : Nat} (x y d : Fin K → Vec w L) :
    ∃ res, Arr.apply2 (i_bit_and c k r) x y 0 d = some res ∧
      ∀ j, Arr.flat res j = Arr.flat x j &&& Arr.flat y j :=
  C25_apply2 _ (· &&& ·) (i_bit_and_eq h hw hr) x y d
theorem C12_or_long {K L : Nat} (x y d : Fin K → Vec w L) :
    ∃ res, Arr.apply2 (i_bit_or c k r) x y 0 d = some res ∧
      ∀ j, Arr.flat res j = Arr.flat x j ||| Arr.flat y j :=
  C25_apply2 _ (· ||| ·) (i_bit_or_eq h hw hr) x y d
theorem C12_xor_long {K L : Nat} (x y d : Fin K → Vec w L) :
    ∃ res, Arr.apply2 (i_bit_xor c k r) x y 0 d = some res ∧
      ∀ j, Arr.flat res j = Arr.flat x j ^^^ Arr.flat y j :=
  C25_apply2 _ (· ^^^ ·) (i_bit_xor_eq h hw hr) x y d
theorem C12_andnot_long {K L : Nat} (x y d : Fin K → Vec w L) :
    ∃ res, Arr.apply2 (i_bit_andnot c k r) x y 0 d = some res ∧
      ∀ j, Arr.flat res j = Arr.flat x j &&& ~~~ Arr.flat y j :=
  C25_apply2 _ (fun a b => a &&& ~~~ b) (i_bit_andnot_eq h hw hr) x y d
theorem C12_not_long {K L : Nat} (x d : Fin K → Vec w L) :
    ∃ res, Arr.apply1 (i_bit_not c k r) x 0 d = some res ∧
      ∀ j, Arr.flat res j = ~~~ Arr.flat x j :=
  C25_apply1 _ (fun a => ~~~ a) (i_bit_not_eq h hw hr) x d

/-! ## C30 -/

omit hr in
/-- C30: mask → vector gives all-ones / all-zeros lanes, vector → mask gives the mask back. -/
theorem C30_round_trip (f : Fin n → Bool) :
    (∀ i, (Mask.of c k r f : Mask w n).unmask i = maskLane w (f i)) ∧
    i_to_mask c k r (Mask.of c k r f : Mask w n).unmask = Mask.of c k r f := by
  rw [Mask.unmask_of]
  exact ⟨fun _ => rfl, i_to_mask_maskLane h hw f⟩

omit hr in
/-- C30: vector → mask → vector is the identity on every vector whose lanes are all-ones
or all-zeros. -/
theorem C30_vec_round_trip (v : Vec w n) (hv : ∀ i, v i = BitVec.allOnes w ∨ v i = 0) :
    (i_to_mask c k r v).unmask = v := by
  have hp := isW_pos hw.isW
  have e : v = fun i => maskLane w (decide (v i = BitVec.allOnes w)) := by
    funext i
    rcases hv i with hi | hi
    · simp [maskLane, hi]
    · have : ¬ ((0 : BitVec w) = BitVec.allOnes w) := by
        intro e; have := maskLane_ne_zero hp true
        simp [maskLane, ← e] at this
      simp [maskLane, hi, this]
  rw [e, i_to_mask_maskLane h hw, Mask.unmask_of]

/-- C30: mask `and`/`or`/`xor`/`andnot`/`not`, converted to vectors, act lane by lane on the
predicates. -/
theorem C30_ops (f g : Fin n → Bool) :
    (∃ m, i_bit_and_mm c k r (Mask.of c k r f : Mask w n) (Mask.of c k r g) = some m ∧
      ∀ i, m.unmask i = maskLane w (f i && g i)) ∧
    (∃ m, i_bit_or_mm c k r (Mask.of c k r f : Mask w n) (Mask.of c k r g) = some m ∧
      ∀ i, m.unmask i = maskLane w (f i || g i)) ∧
    (∃ m, i_bit_xor_mm c k r (Mask.of c k r f : Mask w n) (Mask.of c k r g) = some m ∧
      ∀ i, m.unmask i = maskLane w (f i ^^ g i)) ∧
    (∃ m, i_bit_andnot_mm c k r (Mask.of c k r f : Mask w n) (Mask.of c k r g) = some m ∧
      ∀ i, m.unmask i = maskLane w (f i && !g i)) ∧
    (∃ m, i_bit_not_m c k r (Mask.of c k r f : Mask w n) = some m ∧
      ∀ i, m.unmask i = maskLane w (!f i)) := by
  refine ⟨⟨_, i_bit_and_mm_eq h hw hr f g, ?_⟩, ⟨_, i_bit_or_mm_eq h hw hr f g, ?_⟩,
    ⟨_, i_bit_xor_mm_eq h hw hr f g, ?_⟩, ⟨_, i_bit_andnot_mm_eq h hw hr f g, ?_⟩,
    ⟨_, i_bit_not_m_eq h hw hr f, ?_⟩⟩ <;>
  · intro i; rw [Mask.unmask_of]

/-- C30: the mask operations commute with conversion to vectors (stated with the vector
operations of the same build). -/
theorem C30_commute (f g : Fin n → Bool) :
    (i_bit_and_mm c k r (Mask.of c k r f : Mask w n) (Mask.of c k r g)).map Mask.unmask =
      i_bit_and c k r (Mask.of c k r f : Mask w n).unmask (Mask.of c k r g : Mask w n).unmask ∧
    (i_bit_or_mm c k r (Mask.of c k r f : Mask w n) (Mask.of c k r g)).map Mask.unmask =
      i_bit_or c k r (Mask.of c k r f : Mask w n).unmask (Mask.of c k r g : Mask w n).unmask ∧
    (i_bit_xor_mm c k r (Mask.of c k r f : Mask w n) (Mask.of c k r g)).map Mask.unmask =
      i_bit_xor c k r (Mask.of c k r f : Mask w n).unmask (Mask.of c k r g : Mask w n).unmask ∧
    (i_bit_andnot_mm c k r (Mask.of c k r f : Mask w n) (Mask.of c k r g)).map Mask.unmask =
      i_bit_andnot c k r (Mask.of c k r f : Mask w n).unmask (Mask.of c k r g : Mask w n).unmask ∧
    (i_bit_not_m c k r (Mask.of c k r f : Mask w n)).map Mask.unmask =
      i_bit_not c k r (Mask.of c k r f : Mask w n).unmask := by
  rw [i_bit_and_mm_eq h hw hr, i_bit_or_mm_eq h hw hr, i_bit_xor_mm_eq h hw hr,
    i_bit_andnot_mm_eq h hw hr, i_bit_not_m_eq h hw hr]
  simp only [Option.map_some, Mask.unmask_of]
  rw [i_bit_and_eq h hw hr, i_bit_or_eq h hw hr, i_bit_xor_eq h hw hr, i_bit_andnot_eq h hw hr,
    i_bit_not_eq h hw hr]
  simp only [maskLane_and, maskLane_or, maskLane_xor, maskLane_andnot, maskLane_not, and_self]

end vec

/-! ## Non-vacuity -/

/-- Two configurations with different mask representations: the same predicate is a register on
SSE2 and one bit per lane on AVX-512. -/
example (f : Fin 4 → Bool) :
    (Mask.of Cfg.sse2Only .int .r128 f : Mask 32 4) = .vec (fun i => maskLane 32 (f i)) ∧
    (Mask.of Cfg.avx512All .int .r128 f : Mask 32 4) = .bits f := ⟨rfl, rfl⟩

example : ∃ res, i_bit_andnot Cfg.sse2Only .flt .r128 (fun _ : Fin 4 => 0xF0#32) (fun _ => 0x3C#32) = some res ∧
    ∀ i, res i = 0xC0#32 := by
  have := i_bit_andnot_eq Cfg.sse2Only_ok (k := .flt) (w := 32) (Or.inl rfl) (r := .r128) rfl
    (fun _ : Fin 4 => 0xF0#32) (fun _ => 0x3C#32)
  exact ⟨_, this, fun _ => by decide⟩

example : ∃ m, i_bit_andnot_mm Cfg.avx512All .int .r512
    (Mask.of Cfg.avx512All .int .r512 (fun i => i.val % 2 == 0) : Mask 32 16)
    (Mask.of Cfg.avx512All .int .r512 (fun i => i.val == 2)) = some m ∧
    m.unmask 0 = BitVec.allOnes 32 ∧ m.unmask 2 = 0 ∧ m.unmask 3 = 0 := by
  obtain ⟨m, h1, h2⟩ := (C30_ops Cfg.avx512All_ok (k := .int) (w := 32)
    (Or.inr (Or.inr (Or.inl rfl))) (r := .r512) rfl
    (fun i : Fin 16 => i.val % 2 == 0) (fun i => i.val == 2)).2.2.2.1
  exact ⟨m, h1, by rw [h2]; decide, by rw [h2]; decide, by rw [h2]; decide⟩

end Simdpp
