import Verif.Props.Arith
import Verif.Props.MinMax
import Verif.Props.Compare
import Verif.Props.Shift
import Verif.Props.ShiftVAll
import Verif.Props.ShiftV32
import Verif.Props.MulPub
import Verif.Props.DivP
import Verif.Props.PopcntPub
import Verif.Props.ReduceMul
import Verif.Props.ReducePopcnt
import Verif.Props.ReduceAdd
import Verif.Props.Reduce

/-!
# C04: where the portable backend is free of undefined behaviour

The portable build (`c.null`) evaluates C++ integer expressions lane by lane; the model evaluates
them with the C++ rules of `Model/CInt.lean`, where `none` is undefined behaviour. Every integer
operation gets a theorem saying *exactly* for which operands its portable evaluation is defined.
-/

namespace Simdpp
open Spec

variable {w n N : Nat}

/-- The evaluation ran to completion without undefined behaviour. -/
def Defined {α : Type} (x : Option α) : Prop := ∃ v, x = some v

theorem Defined.of_eq {α : Type} {x : Option α} {v : α} (h : x = some v) : Defined x := ⟨v, h⟩

theorem defined_none {α : Type} : ¬ Defined (none : Option α) := fun ⟨_, h⟩ => by cases h

theorem defined_map {α β : Type} (f : α → β) (x : Option α) : Defined (x.map f) ↔ Defined x := by
  cases x with
  | none => exact ⟨fun h => absurd h defined_none, fun h => absurd h defined_none⟩
  | some v => exact ⟨fun _ => ⟨v, rfl⟩, fun _ => ⟨f v, rfl⟩⟩

theorem defined_ite {α : Type} {p : Prop} [Decidable p] {x : Option α} : Defined (if p then x else none) ↔ p ∧ Defined x := by
  split_ifs with h
  · exact ⟨fun g => ⟨h, g⟩, fun g => g.2⟩
  · exact ⟨fun g => absurd g defined_none, fun g => absurd g.1 h⟩

/-- A loop over the lanes is defined when every iteration is. -/
theorem defined_lanes (f : Fin n → Option (BitVec w)) : Defined (lanesM f : Option (Vec w n)) ↔ ∀ i, Defined (f i) := by
  constructor
  · rintro ⟨v, hv⟩ i
    exact ⟨v i, lanesM_eq_some.1 hv i⟩
  · intro h
    exact ⟨fun i => (h i).choose, lanesM_eq_some.2 fun i => (h i).choose_spec⟩

theorem portable_r128 {c : Cfg} (h : c.Ok) (hc : c.null = true) (hw : IsW w) : c.hasInt w .r128 = true := rfl

section
variable {c : Cfg} (h : c.Ok) (hc : c.null = true)
include h hc

/-! ## Operations that are defined for all operands -/

/-- C04 (add). -/
theorem C04_add (hw : IsW w) (a b : Vec w n) : Defined (i_iadd c .r128 a b) :=
  let ⟨v, e, _⟩ := C01_add h hw (r := .r128) rfl false a b; ⟨v, e⟩

/-- C04 (sub). -/
theorem C04_sub (hw : IsW w) (a b : Vec w n) : Defined (i_isub c .r128 a b) :=
  let ⟨v, e, _⟩ := C01_sub h hw (r := .r128) rfl false a b; ⟨v, e⟩

/-- C04 (saturating add). -/
theorem C04_add_sat (hw : w = 8 ∨ w = 16) (s : Bool) (a b : Vec w n) : Defined (i_add_sat c s .r128 a b) :=
  let ⟨v, e, _⟩ := C02_add_sat h hw (r := .r128) rfl s a b; ⟨v, e⟩

/-- C04 (saturating sub). -/
theorem C04_sub_sat (hw : w = 8 ∨ w = 16) (s : Bool) (a b : Vec w n) : Defined (i_sub_sat c s .r128 a b) :=
  let ⟨v, e, _⟩ := C02_sub_sat h hw (r := .r128) rfl s a b; ⟨v, e⟩

/-- C04 (min, max). -/
theorem C04_min_max (hw : IsW w) (s : Bool) (a b : Vec w n) : Defined (i_min c s .r128 a b) ∧ Defined (i_max c s .r128 a b) := by
  have hm : minmaxSupported c w .r128 := fun _ _ => by
    constructor
    · intro g; exfalso; cfg_absurd h
    · cases g : c.neon32
      · rfl
      · exfalso; simp [Cfg.neon32] at g; cfg_absurd h
  obtain ⟨v, e, _⟩ := C06_min h hw (r := .r128) rfl hm s a b
  obtain ⟨v', e', _⟩ := C06_max h hw (r := .r128) rfl hm s a b
  exact ⟨⟨v, e⟩, ⟨v', e'⟩⟩

/-- C04 (comparisons, all six). -/
theorem C04_cmp (hw : IsW w) (R : Rel) (s : Bool) (a b : Vec w (Reg.r128.lanes w)) : Defined (cmpInt c R s .r128 a b) := by
  have hs : cmpSupported c R w .r128 := by
    have g1 : c.sse2 = false := by cases g : c.sse2; rfl; exfalso; cfg_absurd h
    have g2 : c.neon32 = false := by
      cases g : c.neon32
      · rfl
      · exfalso; simp [Cfg.neon32] at g; cfg_absurd h
    have g3 : c.xop = false := by cases g : c.xop; rfl; exfalso; cfg_absurd h
    refine ⟨by simp [g3], fun _ _ => ?_⟩
    cases R <;> simp [g1, g2]
  obtain ⟨v, e, _⟩ := C13_cmp_int_partial h hw (r := .r128) rfl R s hs (fun e => by subst e; rfl) a b
  exact ⟨v, e⟩

/-- C04 (averages). -/
theorem C04_avg (hw : w = 8 ∨ w = 16 ∨ w = 32) (s : Bool) (a b : Vec w (Reg.r128.lanes w)) :
    Defined (i_avg c s .r128 a b) ∧ Defined (i_avg_trunc c s .r128 a b) := by
  have hn : Reg.r128.lanes w % 2 = 0 := by rcases hw with e | e | e <;> subst e <;> rfl
  obtain ⟨v, e, _⟩ := C05_avg h hw (r := .r128) rfl hn s a b
  obtain ⟨v', e', _⟩ := C05_avg_trunc h hw (r := .r128) rfl hn s a b
  exact ⟨⟨v, e⟩, ⟨v', e'⟩⟩

/-- C04 (population count). -/
theorem C04_popcnt (hw : IsW w) (a : Vec w (Reg.r128.lanes w)) : Defined (i_popcnt c .r128 a) :=
  let ⟨v, e, _⟩ := C08_popcnt h hw (r := .r128) rfl a; ⟨v, e⟩

/-- C04 (high half and full products, 16-bit lanes). -/
theorem C04_mul_hi_mull16 (s : Bool) (a b : Vec 16 8) (hN : c.VLen 16 N) (x y : Vec 16 N) :
    Defined (i_mul_hi c s .r128 a b) ∧ Defined (i_mull16 c s x y) := by
  obtain ⟨v, e, _⟩ := C03_mul_hi h (r := .r128) rfl s a b
  obtain ⟨v', e', _⟩ := C03_mull16 h s hN x y
  exact ⟨⟨v, e⟩, ⟨v', e'⟩⟩

/-- C04 (low products of 32-bit lanes: computed in `uint32_t`). -/
theorem C04_mul_lo32 (a b : Vec 32 4) : Defined (i_mul_lo32 c .r128 a b) :=
  let ⟨v, e, _⟩ := C03_mul_lo32 h (r := .r128) rfl false a b; ⟨v, e⟩

/-- C04 (full products of 32-bit lanes). -/
theorem C04_mull32 (s : Bool) (hN : c.VLen 32 N) (a b : Vec 32 N) : Defined (i_mull32 c s a b) := by
  cases s
  · obtain ⟨v, e, _⟩ := C03_mull32_unsigned h hN a b
    exact ⟨v, e⟩
  · refine let ⟨v, e, _⟩ := C03_mull32_signed_partial h hN (fun g => ?_) a b; ⟨v, e⟩
    obtain ⟨hr, -⟩ := VLen.cases h iw32 hN
    rcases g with g | ⟨-, g | g⟩
    · rw [g] at hr; simp [Cfg.hasInt, Cfg.hasVec] at hr; cfg_absurd h
    · cfg_absurd h
    · cfg_absurd h

/-! ## Operations that are defined exactly on a part of their operands -/

/-- C04 (neg): 8- and 16-bit lanes are always fine (computed in `int`), 32- and 64-bit lanes
exactly when no lane is the minimum of its type. -/
theorem C04_neg (hw : IsW w) (a : Vec w n) :
    Defined (i_ineg c .r128 a) ↔ (32 ≤ w → ∀ i, (a i).toInt ≠ - 2 ^ (w - 1)) := by
  have em : ∀ x : BitVec w, x.toInt ≠ - 2 ^ (w - 1) ↔ x ≠ BitVec.intMin w := by
    intro x
    rw [not_iff_not]
    constructor
    · intro e
      refine BitVec.eq_of_toInt_eq (e.trans ?_)
      rw [BitVec.toInt_intMin_of_pos (isW_pos hw)]
    · rintro rfl
      exact BitVec.toInt_intMin_of_pos (isW_pos hw)
  simp only [em]
  constructor
  · rintro ⟨v, hv⟩ hw32 i hi
    have g : i_ineg c .r128 a = Null.neg true a := by
      unfold i_ineg
      rcases hw with e | e | e | e <;> subst e <;> first | (exfalso; omega) | skip
      all_goals dsimp only
      all_goals split_ifs <;> first | rfl | (exfalso; cfg_absurd h)
    rw [g] at hv
    have := lanesM_eq_some.1 hv i
    rw [hi] at this
    rcases hw with e | e | e | e <;> subst e <;> first | (exfalso; omega) | skip
    all_goals revert this
    · rw [show C.neg (C.lane true (BitVec.intMin 32)) = none by decide]; rintro ⟨⟩
    · rw [show C.neg (C.lane true (BitVec.intMin 64)) = none by decide]; rintro ⟨⟩
  · intro g
    refine ⟨_, i_ineg_eq h hw (r := .r128) rfl a fun _ _ => ?_⟩
    by_cases h16 : w ≤ 16
    · exact Or.inl h16
    · refine Or.inr (g ?_)
      rcases hw with e | e | e | e <;> omega

/-- C04 (abs): the same condition as for `neg`. -/
theorem C04_abs (hw : IsW w) (a : Vec w (Reg.r128.lanes w)) :
    Defined (i_iabs c .r128 a) ↔ (32 ≤ w → ∀ i, (a i).toInt ≠ - 2 ^ (w - 1)) := by
  have em : ∀ x : BitVec w, x.toInt ≠ - 2 ^ (w - 1) ↔ x ≠ BitVec.intMin w := by
    intro x
    rw [not_iff_not]
    constructor
    · intro e
      refine BitVec.eq_of_toInt_eq (e.trans ?_)
      rw [BitVec.toInt_intMin_of_pos (isW_pos hw)]
    · rintro rfl
      exact BitVec.toInt_intMin_of_pos (isW_pos hw)
  simp only [em]
  have ed : absDefined c .r128 a ↔ (32 ≤ w → ∀ i, a i ≠ BitVec.intMin w) := by
    unfold absDefined
    constructor
    · intro g h32; exact g (Or.inl ⟨hc, h32⟩) rfl
    · rintro g (⟨-, g2⟩ | ⟨-, g2, -⟩) -
      · exact g g2
      · exfalso; cfg_absurd h
  rw [← ed]
  constructor
  · rintro ⟨v, hv⟩
    by_contra g
    rw [C07_abs_ub h hw a g] at hv
    cases hv
  · intro g
    have hn : Reg.r128.lanes w % 2 = 0 := by rcases hw with e | e | e | e <;> subst e <;> rfl
    obtain ⟨v, e, _⟩ := C07_abs_partial h hw (r := .r128) rfl hn a g
    exact ⟨v, e⟩

/-- C04 (low products of 16-bit lanes): `uint16_t * uint16_t` is computed in `int`, so it is defined
exactly when every product of the unsigned lane values is below `2^31`. -/
theorem C04_mul_lo16 (a b : Vec 16 n) :
    Defined (i_mul_lo16 c .r128 a b) ↔ ∀ i, (a i).toNat * (b i).toNat < 2 ^ 31 := by
  constructor
  · rintro ⟨v, hv⟩ i
    by_contra g
    rw [C03_mul_lo16_ub hc a b ⟨i, by omega⟩] at hv
    cases hv
  · intro g
    obtain ⟨v, e, _⟩ := C03_mul_lo16_partial h (r := .r128) rfl false a b fun _ => g
    exact ⟨v, e⟩

omit h in
/-- C04 (division with `P` bits of precision): defined exactly when no denominator has its `P` low bits zero. -/
theorem C04_div_p (hw : w = 8 ∨ w = 16) {P : Nat} (hP : P ≤ w) (num den : Vec w n) :
    Defined (div_p c P num den) ↔ ∀ i, (den i).toNat % 2 ^ P ≠ 0 := by
  constructor
  · rintro ⟨v, hv⟩ i g
    rw [C11_portable_zero hc hw hP num den i g] at hv
    cases hv
  · intro g
    obtain ⟨v, e, _⟩ := C11_portable hc hw hP num den g
    exact ⟨v, e⟩

end

/-! ## Shifts -/

/-- Number of bits of the type the shift is computed in: `int` for narrow lanes. -/
def shiftBits (w : Nat) : Nat := max 32 w

theorem shr_defined (s : Bool) (hw : IsW w) (x : BitVec w) (y : C.Val) {k : Nat} (hy : C.wrap (C.promTy y.ty) y.v = k) :
    Defined (C.shr (C.lane s x) y) ↔ k < shiftBits w := by
  have hb : (C.promTy ⟨s, w⟩).bits = shiftBits w := by rcases hw with e | e | e | e <;> subst e <;> cases s <;> decide
  unfold C.shr
  simp only [hy, C.lane_ty, hb]
  rw [defined_ite]
  constructor
  · rintro ⟨⟨-, g⟩, -⟩; omega
  · intro g; exact ⟨⟨by omega, by omega⟩, _, rfl⟩

theorem shl_defined (hw : IsW w) (x : BitVec w) (y : C.Val) {k : Nat} (hy : C.wrap (C.promTy y.ty) y.v = k) :
    Defined (C.shl (C.lane false x) y) ↔ k < shiftBits w ∧ (w < 32 → x.toNat * 2 ^ k < 2 ^ 32) := by
  have hb : (C.promTy ⟨false, w⟩).bits = shiftBits w := by rcases hw with e | e | e | e <;> subst e <;> decide
  have hx : C.wrap (C.promTy ⟨false, w⟩) ((C.lane false x).v) = x.toNat := wrap_prom1 false hw x
  have hs : (C.promTy ⟨false, w⟩).signed = decide (w < 32) := by rcases hw with e | e | e | e <;> subst e <;> decide
  unfold C.shl
  simp only [hy, C.lane_ty, hb, hx, hs, Int.toNat_natCast]
  rw [defined_ite]
  by_cases g : w < 32
  · have e32 : shiftBits w = 32 := by unfold shiftBits; omega
    rw [if_pos (by simpa using g), defined_ite]
    have e : ((x.toNat : Int) * 2 ^ k < 2 ^ shiftBits w) ↔ x.toNat * 2 ^ k < 2 ^ 32 := by
      rw [e32]; exact_mod_cast Iff.rfl
    rw [e]
    constructor
    · rintro ⟨⟨-, g1⟩, ⟨-, g2⟩, -⟩; exact ⟨by omega, fun _ => g2⟩
    · rintro ⟨g1, g2⟩; exact ⟨⟨by omega, by omega⟩, ⟨by omega, g2 g⟩, _, rfl⟩
  · rw [if_neg (by simpa using g)]
    constructor
    · rintro ⟨⟨-, g1⟩, -⟩; exact ⟨by omega, fun g2 => absurd g2 g⟩
    · rintro ⟨g1, g2⟩; exact ⟨⟨by omega, by omega⟩, _, rfl⟩

theorem wrap_u32_nat {k : Nat} (hk : k < 2 ^ 32) : C.wrap (C.promTy C.uint32) ((k : Nat) : Int) = k :=
  C.wrap_u32 (by omega) (by omega)

section
variable {c : Cfg} (h : c.Ok) (hc : c.null = true)
include h hc

theorem portable_shift_r (hw : IsW w) (s : Bool) (a : Vec w n) (k : Nat) : i_shift_r c s .r128 a k = Null.shift_r s a k := by
  rcases hw with e | e | e | e <;> subst e <;> cases s <;> unfold i_shift_r <;> (try unfold i_shift_r_wide) <;> (try unfold i_shift_r_u64) <;>
    simp [hc] <;> split_ifs <;> first | rfl | (exfalso; cfg_absurd h)

theorem portable_shift_l (hw : IsW w) (a : Vec w n) (k : Nat) : i_shift_l c .r128 a k = Null.shift_l false a k := by
  rcases hw with e | e | e | e <;> subst e <;> unfold i_shift_l <;> (try unfold i_shift_l_wide) <;> simp [hc] <;>
    split_ifs <;> first | rfl | (exfalso; cfg_absurd h)

/-- C04 (right shift by a run-time count): defined exactly for counts below the width of the lane type
after promotion to `int`. -/
theorem C04_shift_r (hw : IsW w) (s : Bool) (a : Vec w (Reg.r128.lanes w)) {k : Nat} (hk : k < 2 ^ 32) :
    Defined (i_shift_r c s .r128 a k) ↔ k < shiftBits w := by
  rw [portable_shift_r h hc hw]
  unfold Null.shift_r
  rw [defined_lanes]
  have e : ∀ i, Defined ((C.shr (C.lane s (a i)) ⟨C.uint32, k⟩).map (C.toLane w)) ↔ k < shiftBits w := fun i => by
    rw [defined_map, shr_defined s hw (a i) _ (wrap_u32_nat hk)]
  simp only [e]
  exact ⟨fun g => g ⟨0, lanes_pos hw .r128⟩, fun g _ => g⟩

/-- C04 (left shift by a run-time count): additionally the shifted value of a narrow lane must fit in 32 bits
(it always does for counts up to the lane width). -/
theorem C04_shift_l (hw : IsW w) (a : Vec w (Reg.r128.lanes w)) {k : Nat} (hk : k < 2 ^ 32) :
    Defined (i_shift_l c .r128 a k) ↔ k < shiftBits w ∧ (w < 32 → ∀ i, (a i).toNat * 2 ^ k < 2 ^ 32) := by
  rw [portable_shift_l h hc hw]
  unfold Null.shift_l
  rw [defined_lanes]
  have e : ∀ i, Defined ((C.shl (C.lane false (a i)) ⟨C.uint32, k⟩).map (C.toLane w)) ↔
      k < shiftBits w ∧ (w < 32 → (a i).toNat * 2 ^ k < 2 ^ 32) := fun i => by
    rw [defined_map, shl_defined hw (a i) _ (wrap_u32_nat hk)]
  simp only [e]
  exact ⟨fun g => ⟨(g ⟨0, lanes_pos hw .r128⟩).1, fun g2 i => (g i).2 g2⟩, fun g i => ⟨g.1, fun g2 => g.2 g2 i⟩⟩

/-- C04 (shifts by a documented count, below the lane width): always defined. -/
theorem C04_shift_in_range (hw : IsW w) (s : Bool) (a : Vec w (Reg.r128.lanes w)) {k : Nat} (hk : k < w) :
    Defined (i_shift_r c s .r128 a k) ∧ Defined (i_shift_l c .r128 a k) := by
  have hn : Reg.r128.lanes w % 2 = 0 := by rcases hw with e | e | e | e <;> subst e <;> rfl
  obtain ⟨v, e, _⟩ := C09_shift_r h hw (r := .r128) rfl hn s a k hk
  obtain ⟨v', e', _⟩ := C09_shift_l h hw (r := .r128) rfl hn false a k hk
  exact ⟨⟨v, e⟩, ⟨v', e'⟩⟩

theorem portable_shift_r_v (hw : w = 8 ∨ w = 16 ∨ w = 32) (s : Bool) (a k : Vec w n) :
    shift_r_v c s .r128 a k = Null.shift_r_v s a k := by
  have hs : c.hasShiftRV s w := by simp [Cfg.hasShiftRV, hc]
  rcases hw with e | e | e <;> subst e <;> cases s <;> unfold shift_r_v <;> rw [if_pos hs] <;>
    simp [i_shift_r_v8, i_shift_r_v16s, i_shift_r_v16u, i_shift_r_v32, hc]

theorem portable_shift_l_v (hw : w = 8 ∨ w = 16 ∨ w = 32) (a k : Vec w n) :
    shift_l_v c .r128 a k = Null.shift_l_v false a k := by
  have hs : c.hasShiftLV w := by simp [Cfg.hasShiftLV, hc]
  rcases hw with e | e | e <;> subst e <;> unfold shift_l_v <;> rw [if_pos hs] <;>
    simp [i_shift_l_v8, i_shift_l_v16, i_shift_l_v32, hc]

/-- C04 (right shift by per-lane counts). -/
theorem C04_shift_r_v (hw : w = 8 ∨ w = 16 ∨ w = 32) (s : Bool) (a k : Vec w n) :
    Defined (shift_r_v c s .r128 a k) ↔ ∀ i, (k i).toNat < shiftBits w := by
  have hw' : IsW w := by rcases hw with e | e | e <;> subst e <;> simp [IsW]
  rw [portable_shift_r_v h hc hw]
  unfold Null.shift_r_v
  rw [defined_lanes]
  refine forall_congr' fun i => ?_
  rw [defined_map, shr_defined s hw' (a i) (C.lane false (k i)) (wrap_prom1 false hw' (k i))]

/-- C04 (left shift by per-lane counts). -/
theorem C04_shift_l_v (hw : w = 8 ∨ w = 16 ∨ w = 32) (a k : Vec w n) :
    Defined (shift_l_v c .r128 a k) ↔
      ∀ i, (k i).toNat < shiftBits w ∧ (w < 32 → (a i).toNat * 2 ^ (k i).toNat < 2 ^ 32) := by
  have hw' : IsW w := by rcases hw with e | e | e <;> subst e <;> simp [IsW]
  rw [portable_shift_l_v h hc hw]
  unfold Null.shift_l_v
  rw [defined_lanes]
  refine forall_congr' fun i => ?_
  rw [defined_map, shl_defined hw' (a i) (C.lane false (k i)) (wrap_prom1 false hw' (k i))]

/-! ## Reductions -/

/-- C04 (reductions that are defined for all operands). -/
theorem C04_reduce (hw : IsW w) (hN : c.VLen w N) (s : Bool) (a : Vec w N) :
    Defined (reduce_bit c false a) ∧ Defined (reduce_bit c true a) ∧
    Defined (reduce_mm c false s a) ∧ Defined (reduce_mm c true s a) := by
  have g1 : c.msa = false := by cases g : c.msa; rfl; exfalso; cfg_absurd h
  have g2 : c.neon32 = false := by
    cases g : c.neon32
    · rfl
    · exfalso; simp [Cfg.neon32] at g; cfg_absurd h
  have hS : ∀ m, mmRedSupported c m s w N := fun m _ => by simp [g1, g2, msa32s]
  obtain ⟨v1, e1, _⟩ := C16_reduce_or h hw hN a
  obtain ⟨v2, e2, _⟩ := C16_reduce_and h hw hN a
  obtain ⟨v3, e3, _⟩ := C16_reduce_min h hw s hN (hS _) a
  obtain ⟨v4, e4, _⟩ := C16_reduce_max h hw s hN (hS _) a
  exact ⟨⟨v1, e1⟩, ⟨v2, e2⟩, ⟨v3, e3⟩, ⟨v4, e4⟩⟩

/-- C04 (sums of 8-, 32- and 64-bit lanes, and of unsigned 16-bit lanes). -/
theorem C04_reduce_add (s : Bool) {N8 N16 : Nat} (h8 : c.VLen 8 N8) (a : Vec 8 N8) (h16 : c.VLen 16 N16) (b : Vec 16 N16)
    (hw : w = 32 ∨ w = 64) (hN : c.VLen w N) (d : Vec w N) :
    Defined (reduce_add8 c s a) ∧ Defined (reduce_add16 c false b) ∧ Defined (reduce_add_wide c d) := by
  have g1 : c.altivec = false := by cases g : c.altivec; rfl; exfalso; cfg_absurd h
  have g2 : c.avx512bw = false := by cases g : c.avx512bw; rfl; exfalso; cfg_absurd h
  exact ⟨⟨_, C16_reduce_add8 h s h8 (by simp [add8Supported, g1, g2]) a⟩,
    ⟨_, C16_reduce_add16 h false h16 (by simp [add16Supported, g1]) b⟩, ⟨_, C16_reduce_add_wide h s hw hN d⟩⟩

/-- C04 (sum of signed 16-bit lanes, accumulated in `int32_t`): a vector of more than one register is safe
for all its contents exactly when it has at most 65536 lanes. -/
theorem C04_reduce_add16 (hN : c.VLen 16 N) (hs : c.single 16 N = false) :
    (∀ a : Vec 16 N, Defined (reduce_add16 c true a)) ↔ N ≤ 65536 := by
  have g1 : c.altivec = false := by cases g : c.altivec; rfl; exfalso; cfg_absurd h
  constructor
  · intro g
    by_contra g2
    obtain ⟨v, hv⟩ := g (Vec.splat (-32768))
    rw [C16_reduce_add16_ub hc hs (by omega)] at hv
    cases hv
  · intro g a
    exact ⟨_, C16_reduce_add16 h true hN (by simp [add16Supported, g1, g]) a⟩

/-- C04 (products of 32-bit lanes, and of unsigned 16-bit lanes). -/
theorem C04_reduce_mul {N16 : Nat} (h16 : c.VLen 16 N16) (b : Vec 16 N16) (hN : c.VLen 32 N) (d : Vec 32 N) :
    Defined (reduce_mul16 c false b) ∧ Defined (reduce_mul32 c d) := by
  have g2 : c.avx512bw = false := by cases g : c.avx512bw; rfl; exfalso; cfg_absurd h
  have g3 : c.avx512f = false := by cases g : c.avx512f; rfl; exfalso; cfg_absurd h
  exact ⟨⟨_, C16_reduce_mul16 h false h16 b (by simp [mul16Supported, g2])⟩,
    ⟨_, C16_reduce_mul32 h false hN (by simp [g3]) d⟩⟩

open Classical in
omit h hc in
/-- A signed accumulation in `int`: defined exactly when no intermediate value overflows. -/
theorem accLoop_iff {n : Nat} (a : Vec 16 n) {op : C.Val → C.Val → Option C.Val} {f : Int → Int → Int}
    (hop : ∀ x y, op ⟨⟨true, 32⟩, x⟩ ⟨⟨true, 16⟩, y⟩ = C.arith ⟨true, 32⟩ (f (C.wrap ⟨true, 32⟩ x) (C.wrap ⟨true, 32⟩ y)))
    (P : Nat → Int) (start : Nat) (hP : ∀ i, start ≤ i → P (i + 1) = f (P i) (a.at_ i).toInt)
    (h0 : ∀ k, k ≤ start → C.InR ⟨true, 32⟩ (P k)) (m : Nat) (hm : start + m ≤ n) :
    loopM (fun i r => if i < n then (op r (C.lane true (a.at_ i))).map (C.cast ⟨true, 32⟩) else none) start m ⟨⟨true, 32⟩, P start⟩ =
      if ∀ k, k ≤ start + m → C.InR ⟨true, 32⟩ (P k) then some ⟨⟨true, 32⟩, P (start + m)⟩ else none := by
  have hv : ∀ i, C.InR ⟨true, 32⟩ (a.at_ i).toInt := fun i => by
    have hb := C.toInt_bounds16 (a.at_ i)
    exact ⟨by show (-2147483648:Int) ≤ (a.at_ i).toInt; omega, by show (a.at_ i).toInt ≤ (2147483647:Int); omega⟩
  induction m with
  | zero => exact (if_pos h0).symm
  | succ m ih =>
    rw [loopM, ih (by omega)]
    by_cases g : ∀ k, k ≤ start + m → C.InR ⟨true, 32⟩ (P k)
    · rw [if_pos g]
      show (if start + m < n then _ else _) = _
      rw [if_pos (by omega)]
      have e : op ⟨⟨true, 32⟩, P (start + m)⟩ (C.lane true (a.at_ (start + m))) = C.arith ⟨true, 32⟩ (P (start + m + 1)) := by
        refine (hop _ _).trans ?_
        show C.arith ⟨true, 32⟩ (f _ (C.wrap ⟨true, 32⟩ (a.at_ (start + m)).toInt)) = _
        rw [C.wrap_inR (by decide) (g _ le_rfl), C.wrap_inR (by decide) (hv (start + m)), hP _ (by omega)]
      rw [e]
      unfold C.arith
      rw [if_pos rfl]
      by_cases g2 : C.InR ⟨true, 32⟩ (P (start + m + 1))
      · rw [if_pos (show _ ∧ _ from g2), if_pos]
        · show some (C.cast _ _) = _
          rw [C.cast_inR (by decide) g2]; rfl
        · intro k hk
          by_cases ek : k ≤ start + m
          · exact g k ek
          · have : k = start + m + 1 := by omega
            exact this ▸ g2
      · rw [if_neg (show ¬ (_ ∧ _) from g2), if_neg fun g3 => g2 (g3 _ (by omega))]; rfl
    · rw [if_neg g, if_neg fun g3 => g fun k hk => g3 k (by omega)]; rfl

omit h hc in
theorem inR_int32 (x : Int) : C.InR ⟨true, 32⟩ x ↔ -2 ^ 31 ≤ x ∧ x < 2 ^ 31 := by
  show ((-2147483648:Int) ≤ _ ∧ _ ≤ (2147483647:Int)) ↔ _
  constructor <;> rintro ⟨x, y⟩ <;> constructor <;> omega

omit h hc in
/-- One accumulated lane: `T r = a.el(0)`. -/
theorem acc_first {n : Nat} (a : Vec 16 n) {x : Int} (hx : x = (a.at_ 0).toInt) :
    C.cast ⟨true, 32⟩ (C.lane true (a.at_ 0)) = ⟨⟨true, 32⟩, x⟩ ∧ C.InR ⟨true, 32⟩ x := by
  have hb := C.toInt_bounds16 (a.at_ 0)
  have hi : C.InR ⟨true, 32⟩ (a.at_ 0).toInt :=
    ⟨by show (-2147483648:Int) ≤ (a.at_ 0).toInt; omega, by show (a.at_ 0).toInt ≤ (2147483647:Int); omega⟩
  subst hx
  exact ⟨C.cast_inR (s := ⟨true, 16⟩) (by decide) hi, hi⟩

include h hc in
theorem single16 (gs : c.single 16 N = true) : c.regOf 16 N = .r128 ∧ N = 8 := by
  have g2 : c.avx512bw = false := by cases g : c.avx512bw; rfl; exfalso; cfg_absurd h
  have g3 : c.avx2 = false := by cases g : c.avx2; rfl; exfalso; cfg_absurd h
  have hr : c.regOf 16 N = .r128 := by
    cases e : c.regOf 16 N with
    | r128 => rfl
    | r256 =>
      exfalso
      have hh : c.hasInt 16 .r256 = true := by
        unfold Cfg.regOf at e
        split_ifs at e with x1 x2 x3
        · exact x2.1
        · have := fast_has c 16; rwa [e] at this
      revert hh; rw [show c.hasInt 16 .r256 = c.avx2 from rfl, g3]; simp
    | r512 =>
      exfalso
      have hh : c.hasInt 16 .r512 = true := by
        unfold Cfg.regOf at e
        split_ifs at e with x1 x2 x3
        · exact x3.1
        · have := fast_has c 16; rwa [e] at this
      revert hh; rw [show c.hasInt 16 .r512 = c.avx512bw from rfl, g2]; simp
  refine ⟨hr, ?_⟩
  have := of_decide_eq_true gs
  rw [hr] at this; exact this

omit h hc in
theorem part8_self (a : Vec 16 8) : (Hw.part 8 0 a : Vec 16 8) = a := by
  funext i
  have e1 := part_at0 a i.isLt
  rw [Vec.at_fin, Vec.at_fin] at e1
  exact e1

/-- C04 (sum of signed 16-bit lanes, accumulated in `int`): safe exactly when none of the sums of the first lanes leaves
the range of `int`. -/
theorem C04_reduce_add16_exact (hN : c.VLen 16 N) (a : Vec 16 N) :
    Defined (reduce_add16 c true a) ↔
      ∀ k, k ≤ N → -2 ^ 31 ≤ (∑ i ∈ Finset.range k, (a.at_ i).toInt) ∧ (∑ i ∈ Finset.range k, (a.at_ i).toInt) < 2 ^ 31 := by
  classical
  have key : ∀ {n : Nat} (a : Vec 16 n) (start : Nat), start ≤ 1 → start ≤ n → (Defined (addLoop true true 32 start a) ↔
      ∀ k, k ≤ n → -2 ^ 31 ≤ (∑ i ∈ Finset.range k, (a.at_ i).toInt) ∧ (∑ i ∈ Finset.range k, (a.at_ i).toInt) < 2 ^ 31) := by
    intro n a start hs hsn
    have hf := acc_first a (x := ∑ i ∈ Finset.range 1, (a.at_ i).toInt) (by simp)
    have e0 : (if start = 0 then (⟨⟨true, 32⟩, 0⟩ : C.Val) else C.cast ⟨true, 32⟩ (C.lane true (a.at_ 0))) =
        ⟨⟨true, 32⟩, ∑ i ∈ Finset.range start, (a.at_ i).toInt⟩ := by
      have : start = 0 ∨ start = 1 := by omega
      rcases this with e | e <;> subst e
      · rfl
      · exact hf.1
    have l := accLoop_iff a (op := C.add) (f := (· + ·)) (fun _ _ => rfl) (fun k => ∑ i ∈ Finset.range k, (a.at_ i).toInt) start
      (fun i _ => Finset.sum_range_succ _ _) (fun k hk => by
        have : k = 0 ∨ (k = 1 ∧ start = 1) := by omega
        rcases this with e | ⟨e, -⟩ <;> subst e
        · rw [Finset.sum_range_zero]; exact ⟨by decide, by decide⟩
        · exact hf.2) (n - start) (by omega)
    unfold addLoop
    dsimp only
    rw [e0, l, show start + (n - start) = n by omega]
    simp only [inR_int32]
    split_ifs with g
    · exact ⟨fun _ => g, fun _ => ⟨_, rfl⟩⟩
    · exact ⟨fun x => absurd x defined_none, fun x => absurd x g⟩
  cases gs : c.single 16 N with
  | false =>
    have e0 : reduce_add16 c true a = addLoop true true 32 0 a := by
      unfold reduce_add16
      rw [if_neg (by simp [gs])]
      exact if_pos hc
    rw [e0]; exact key a 0 (by decide) (by omega)
  | true =>
    obtain ⟨hr, eN⟩ := single16 h hc gs
    subst eN
    have e0 : reduce_add16 c true a = addLoop true true 32 1 (Hw.part 8 0 a) := by
      unfold reduce_add16
      rw [if_pos gs, hr]
      exact if_pos hc
    rw [e0, part8_self]; exact key a 1 (by decide) (by decide)

/-- C04 (product of signed 16-bit lanes): more than one register is always safe; one register is computed
in `int`, and is safe exactly when none of the products of the first lanes leaves the range of `int`. -/
theorem C04_reduce_mul16 (hN : c.VLen 16 N) (a : Vec 16 N) :
    Defined (reduce_mul16 c true a) ↔
      (c.single 16 N = true → ∀ k, k ≤ N →
        -2 ^ 31 ≤ (∏ i ∈ Finset.range k, (a.at_ i).toInt) ∧ (∏ i ∈ Finset.range k, (a.at_ i).toInt) < 2 ^ 31) := by
  have g1 : c.altivec = false := by cases g : c.altivec; rfl; exfalso; cfg_absurd h
  have g2 : c.avx512bw = false := by cases g : c.avx512bw; rfl; exfalso; cfg_absurd h
  have g3 : c.avx2 = false := by cases g : c.avx2; rfl; exfalso; cfg_absurd h
  cases gs : c.single 16 N with
  | false =>
    refine ⟨fun _ g => (Bool.false_ne_true g).elim, fun _ => ⟨_, C16_reduce_mul16 h true hN a ⟨by simp [g2], fun _ g => ?_⟩⟩⟩
    rcases g with g | g
    · rw [gs] at g; exact (Bool.false_ne_true g.2).elim
    · rw [g1] at g; cases g
  | true =>
    classical
    obtain ⟨hr, eN⟩ := single16 h hc gs
    subst eN
    have e0 : reduce_mul16 c true a = mulLoop true true 1 (Hw.part 8 0 a) := by
      unfold reduce_mul16
      rw [if_pos gs, hr]
      exact if_pos hc
    have hf := acc_first a (x := ∏ i ∈ Finset.range 1, (a.at_ i).toInt) (by simp)
    have l := accLoop_iff a (op := C.mul) (f := (· * ·)) (fun _ _ => rfl) (fun k => ∏ i ∈ Finset.range k, (a.at_ i).toInt) 1
      (fun i _ => Finset.prod_range_succ _ _) (fun k hk => by
        have : k = 0 ∨ k = 1 := by omega
        rcases this with e | e <;> subst e
        · rw [Finset.prod_range_zero]; exact ⟨by decide, by decide⟩
        · exact hf.2) (8 - 1) (by decide)
    rw [e0, part8_self]
    unfold mulLoop
    dsimp only
    rw [if_neg (by decide), hf.1, l]
    simp only [inR_int32]
    split_ifs with g
    · exact ⟨fun _ _ => g, fun _ => ⟨_, rfl⟩⟩
    · exact ⟨fun x => absurd x defined_none, fun x => absurd (x trivial) g⟩

example : Cfg.portable.single 16 8 = true ∧ Cfg.portable.VLen 16 8 :=
  ⟨by decide +kernel, Or.inl ⟨.r128, by decide +kernel, by decide +kernel⟩⟩

/-- C04 (population count of a whole vector). -/
theorem C04_reduce_popcnt {m : Nat} (hN : c.VLen 32 m) (hm : w * N = 32 * m) (a : Vec w N) : Defined (reduce_popcnt c a) :=
  ⟨_, C16_reduce_popcnt h hN hm a⟩

end

/-! ## Any vector length -/

theorem apply2_defined {α β γ : Type} {k : Nat} (f : α → β → Option γ) (a : Fin k → α) (b : Fin k → β) (I : Nat) (d : Fin k → γ) :
    Defined (Arr.apply2 f a b I d) ↔ ∀ j : Fin k, I ≤ j.val → Defined (f (a j) (b j)) := by
  by_cases hI : I < k
  · rw [Arr.apply2, dif_pos hI]
    cases e : f (a ⟨I, hI⟩) (b ⟨I, hI⟩) with
    | none =>
      refine ⟨fun g => absurd g defined_none, fun g => ?_⟩
      have := g ⟨I, hI⟩ le_rfl
      rw [e] at this
      exact absurd this defined_none
    | some v =>
      refine (apply2_defined f a b (I + 1) _).trans ⟨fun g j hj => ?_, fun g j hj => g j (by omega)⟩
      by_cases hj2 : j.val = I
      · rw [show j = ⟨I, hI⟩ from Fin.ext hj2, e]; exact ⟨v, rfl⟩
      · exact g j (by omega)
  · rw [Arr.apply2, dif_neg hI]
    exact ⟨fun _ j hj => absurd j.isLt (by omega), fun _ => ⟨_, rfl⟩⟩
termination_by k - I

/-- C04 (long vectors): an element-wise operation on an array of registers is defined exactly when it is on each of them. -/
theorem C04_long {k L : Nat} (f : Vec w L → Vec w L → Option (Vec w L)) (a b d : Fin k → Vec w L) :
    Defined (Arr.apply2 f a b 0 d) ↔ ∀ j, Defined (f (a j) (b j)) :=
  (apply2_defined f a b 0 d).trans ⟨fun g j => g j (Nat.zero_le _), fun g j _ => g j⟩

/-- C04 (long vectors) applied: 16-bit `mul_lo` of any length is defined exactly when all products are below `2^31`. -/
theorem C04_mul_lo16_long {c : Cfg} (h : c.Ok) (hc : c.null = true) {k L : Nat} (a b d : Fin k → Vec 16 L) :
    Defined (Arr.apply2 (i_mul_lo16 c .r128) a b 0 d) ↔ ∀ j, (Arr.flat a j).toNat * (Arr.flat b j).toNat < 2 ^ 31 := by
  rw [C04_long]
  simp only [C04_mul_lo16 h hc]
  constructor
  · intro g j; exact g _ _
  · intro g j i
    have hj : j.val * L + i.val < k * L := by
      have h1 := j.isLt; have h2 := i.isLt
      have h3 : (j.val + 1) * L ≤ k * L := Nat.mul_le_mul_right _ h1
      rw [Nat.add_mul, Nat.one_mul] at h3
      omega
    have := g ⟨j.val * L + i.val, hj⟩
    unfold Arr.flat at this
    have hL : 0 < L := by have := i.isLt; omega
    have e1 : (j.val * L + i.val) / L = j.val := by rw [Nat.mul_comm, Nat.mul_add_div hL, Nat.div_eq_of_lt i.isLt, Nat.add_zero]
    have e2 : (j.val * L + i.val) % L = i.val := by rw [Nat.mul_comm, Nat.mul_add_mod, Nat.mod_eq_of_lt i.isLt]
    simpa only [e1, e2] using this

/-! ## The claim in full is false, and the conditions are met -/

/-- Negation of the unrestricted C04: there are operations and operands with undefined behaviour in the portable build. -/
theorem C04_not_universal :
    ¬ Defined (i_ineg Cfg.portable .r128 (fun _ : Fin 4 => BitVec.intMin 32)) ∧
    ¬ Defined (i_iabs Cfg.portable .r128 (Vec.splat (BitVec.intMin 32) : Vec 32 4)) ∧
    ¬ Defined (i_mul_lo16 Cfg.portable .r128 (Vec.splat 65535 : Vec 16 8) (Vec.splat 65535)) ∧
    ¬ Defined (div_p Cfg.portable 4 (Vec.splat 5 : Vec 8 16) (Vec.splat 16)) ∧
    ¬ Defined (reduce_mul16 Cfg.portable true (Vec.splat 32767 : Vec 16 8)) := by
  refine ⟨fun g => ?_, fun g => ?_, fun g => ?_, fun g => ?_, fun g => ?_⟩
  · exact (C04_neg Cfg.portable_ok rfl iw32 _).1 g (by decide) 0 (by decide)
  · exact (C04_abs Cfg.portable_ok rfl iw32 (Vec.splat (BitVec.intMin 32) : Vec 32 4)).1 g (by decide) ⟨0, by decide⟩ (by decide)
  · exact absurd ((C04_mul_lo16 Cfg.portable_ok rfl _ _).1 g 0) (by decide)
  · exact absurd ((C04_div_p (c := Cfg.portable) rfl (Or.inl rfl) (by decide) _ _).1 g 0) (by decide)
  · obtain ⟨v, hv⟩ := g
    rw [C16_reduce_mul16_ub] at hv
    cases hv

/-- The minimum of a 16-bit type can be negated; a 16-bit lane can be shifted right by 31 but not by 32; shifting the
lane 65535 left by 16 is fine, by 17 is not. -/
example : Defined (i_ineg Cfg.portable .r128 (fun _ : Fin 8 => BitVec.intMin 16)) ∧
    Defined (i_shift_r Cfg.portable true .r128 (Vec.splat 1 : Vec 16 8) 31) ∧
    ¬ Defined (i_shift_r Cfg.portable true .r128 (Vec.splat 1 : Vec 16 8) 32) ∧
    Defined (i_shift_l Cfg.portable .r128 (Vec.splat 65535 : Vec 16 8) 16) ∧
    ¬ Defined (i_shift_l Cfg.portable .r128 (Vec.splat 65535 : Vec 16 8) 17) := by
  refine ⟨(C04_neg Cfg.portable_ok rfl iw16 _).2 (fun g => absurd g (by decide)),
    (C04_shift_r Cfg.portable_ok rfl iw16 true _ (by decide)).2 (by decide),
    fun g => absurd ((C04_shift_r Cfg.portable_ok rfl iw16 true (Vec.splat 1 : Vec 16 8) (by decide)).1 g) (by decide),
    (C04_shift_l Cfg.portable_ok rfl iw16 _ (by decide)).2 ⟨by decide, fun _ i => ?_⟩,
    fun g => absurd (((C04_shift_l Cfg.portable_ok rfl iw16 (Vec.splat 65535 : Vec 16 8) (by decide)).1 g).2 (by decide) ⟨0, by decide⟩) ?_⟩
  · show (65535#16).toNat * 2 ^ 16 < 2 ^ 32; decide
  · show ¬ (65535#16).toNat * 2 ^ 17 < 2 ^ 32; decide

end Simdpp
