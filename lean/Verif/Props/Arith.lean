import Verif.Model.Arith
import Verif.Model.Array
import Verif.Props.BitwiseLemmas
import Verif.Props.Samples
import Mathlib.Tactic.Positivity

/-!
# C01 add/sub, C02 saturating add/sub, C07 neg, C25 array lifting
-/

namespace Simdpp
open Spec

variable {w n : Nat}

/-! ## Long vectors (C25) -/

/-- C25: an operation that computes lane function `g` on every base vector computes it
on the flat lane sequence of a long vector, whatever the number and length of base vectors. -/
theorem C25_apply1 {α β : Type} {k L : Nat} (op : (Fin L → α) → Option (Fin L → β)) (g : α → β)
    (h : ∀ x, op x = some (fun i => g (x i))) (src : Fin k → Fin L → α) (d : Fin k → Fin L → β) :
    ∃ res, Arr.apply1 op src 0 d = some res ∧
      ∀ j, Arr.flat res j = g (Arr.flat src j) :=
  ⟨_, Arr.apply1_spec op src (fun i l => g (src i l)) (fun i => h _) 0 d, fun j => by
    simp [Arr.flat]⟩

/-- C25 for two-operand operations (`SIMDPP_VEC_ARRAY_IMPL2`). -/
theorem C25_apply2 {α β γ : Type} {k L : Nat}
    (op : (Fin L → α) → (Fin L → β) → Option (Fin L → γ)) (g : α → β → γ)
    (h : ∀ x y, op x y = some (fun i => g (x i) (y i)))
    (a : Fin k → Fin L → α) (b : Fin k → Fin L → β) (d : Fin k → Fin L → γ) :
    ∃ res, Arr.apply2 op a b 0 d = some res ∧
      ∀ j, Arr.flat res j = g (Arr.flat a j) (Arr.flat b j) :=
  ⟨_, Arr.apply2_spec op a b (fun i l => g (a i l) (b i l)) (fun i => h _ _) 0 d, fun j => by
    simp [Arr.flat]⟩

/-- C25 for operations with one uniform (scalar) operand (`SIMDPP_VEC_ARRAY_IMPL2S`). -/
theorem C25_apply2S {α β γ : Type} {k L : Nat}
    (op : (Fin L → α) → β → Option (Fin L → γ)) (g : α → β → γ) (b : β)
    (h : ∀ x, op x b = some (fun i => g (x i) b))
    (a : Fin k → Fin L → α) (d : Fin k → Fin L → γ) :
    ∃ res, Arr.apply2S op a b 0 d = some res ∧ ∀ j, Arr.flat res j = g (Arr.flat a j) b :=
  ⟨_, Arr.apply2S_spec op a b (fun i l => g (a i l) b) (fun i => h _) 0 d, fun j => by
    simp [Arr.flat]⟩

/-- C25 for three-operand operations (`SIMDPP_VEC_ARRAY_IMPL3`). -/
theorem C25_apply3 {α β γ δ : Type} {k L : Nat}
    (op : (Fin L → α) → (Fin L → β) → (Fin L → γ) → Option (Fin L → δ)) (g : α → β → γ → δ)
    (h : ∀ x y z, op x y z = some (fun i => g (x i) (y i) (z i)))
    (a : Fin k → Fin L → α) (b : Fin k → Fin L → β) (e : Fin k → Fin L → γ)
    (d : Fin k → Fin L → δ) :
    ∃ res, Arr.apply3 op a b e 0 d = some res ∧
      ∀ j, Arr.flat res j = g (Arr.flat a j) (Arr.flat b j) (Arr.flat e j) :=
  ⟨_, Arr.apply3_spec op a b e (fun i l => g (a i l) (b i l) (e i l)) (fun i => h _ _ _) 0 d,
    fun j => by simp [Arr.flat]⟩

/-! ## add / sub (C01) -/

theorem i_iadd_eq {c : Cfg} (h : c.Ok) (hw : IsW w) {r : Reg} (hr : c.hasInt w r = true)
    (a b : Vec w n) : i_iadd c r a b = some (fun i => a i + b i) := by
  unfold i_iadd
  split <;> split_ifs <;>
    first
    | rfl
    | exact Null.add_eq hw a b
    | cfg_absurd h

theorem i_isub_eq {c : Cfg} (h : c.Ok) (hw : IsW w) {r : Reg} (hr : c.hasInt w r = true)
    (a b : Vec w n) : i_isub c r a b = some (fun i => a i - b i) := by
  unfold i_isub
  split <;> split_ifs <;>
    first
    | rfl
    | exact Null.sub_eq hw a b
    | cfg_absurd h

theorem add_spec (s : Bool) (x y : BitVec w) : x + y = lane w (val s x + val s y) := by
  cases s
  · simp [lane, val, BitVec.ofInt_add]
  · simp [lane, val, BitVec.ofInt_add]

theorem sub_spec (s : Bool) (x y : BitVec w) : x - y = lane w (val s x - val s y) := by
  unfold lane
  rw [Int.sub_eq_add_neg, BitVec.ofInt_add, BitVec.ofInt_neg, BitVec.sub_eq_add_neg]
  cases s <;> simp [val]

/-- C01 (add): on every configuration, for every lane width and both signednesses, no
undefined behaviour occurs and each lane is the exact sum modulo `2^w`. -/
theorem C01_add {c : Cfg} (h : c.Ok) (hw : IsW w) {r : Reg} (hr : c.hasInt w r = true) (s : Bool)
    (a b : Vec w n) :
    ∃ res, i_iadd c r a b = some res ∧ ∀ i, res i = lane w (val s (a i) + val s (b i)) :=
  ⟨_, i_iadd_eq h hw hr a b, fun _ => add_spec s _ _⟩

/-- C01 (sub). -/
theorem C01_sub {c : Cfg} (h : c.Ok) (hw : IsW w) {r : Reg} (hr : c.hasInt w r = true) (s : Bool)
    (a b : Vec w n) :
    ∃ res, i_isub c r a b = some res ∧ ∀ i, res i = lane w (val s (a i) - val s (b i)) :=
  ⟨_, i_isub_eq h hw hr a b, fun _ => sub_spec s _ _⟩

/-- C01 on vectors of any length, cut into any number `k` of base vectors. -/
theorem C01_add_long {c : Cfg} (h : c.Ok) (hw : IsW w) {r : Reg} (hr : c.hasInt w r = true)
    (s : Bool) {k L : Nat} (a b d : Fin k → Vec w L) :
    ∃ res, Arr.apply2 (i_iadd c r) a b 0 d = some res ∧
      ∀ j, Arr.flat res j = lane w (val s (Arr.flat a j) + val s (Arr.flat b j)) := by
  obtain ⟨res, h1, h2⟩ := C25_apply2 (i_iadd c r) (· + ·) (i_iadd_eq h hw hr) a b d
  exact ⟨res, h1, fun j => (h2 j).trans (add_spec s _ _)⟩

theorem C01_sub_long {c : Cfg} (h : c.Ok) (hw : IsW w) {r : Reg} (hr : c.hasInt w r = true)
    (s : Bool) {k L : Nat} (a b d : Fin k → Vec w L) :
    ∃ res, Arr.apply2 (i_isub c r) a b 0 d = some res ∧
      ∀ j, Arr.flat res j = lane w (val s (Arr.flat a j) - val s (Arr.flat b j)) := by
  obtain ⟨res, h1, h2⟩ := C25_apply2 (i_isub c r) (· - ·) (i_isub_eq h hw hr) a b d
  exact ⟨res, h1, fun j => (h2 j).trans (sub_spec s _ _)⟩

/-- C01: sub undoes add. -/
theorem C01_add_sub_cancel {c : Cfg} (h : c.Ok) (hw : IsW w) {r : Reg} (hr : c.hasInt w r = true)
    (a b : Vec w n) : (i_iadd c r a b).bind (fun t => i_isub c r t b) = some a := by
  rw [i_iadd_eq h hw hr, Option.bind_some, i_isub_eq h hw hr]
  exact congrArg some (funext fun i => BitVec.add_sub_cancel (a i) (b i))

/-! ## saturating add / sub (C02) -/

theorem ssat_eq (z : Int) : Hw.ssat w z = lane w (clamp true w z) := rfl
theorem usat_eq (z : Int) : Hw.usat w z = lane w (clamp false w z) := rfl

theorem i_add_sat_eq {c : Cfg} (h : c.Ok) (hw : w = 8 ∨ w = 16) {r : Reg}
    (hr : c.hasInt w r = true) (s : Bool) (a b : Vec w n) :
    i_add_sat c s r a b = some (fun i => lane w (clamp s w (val s (a i) + val s (b i)))) := by
  have hh : (if s then Hw.adds_s a b else Hw.adds_u a b) =
      fun i => lane w (clamp s w (val s (a i) + val s (b i))) := by cases s <;> rfl
  unfold i_add_sat
  rw [hh]
  have : w ≤ 16 := by omega
  split <;> split_ifs <;>
    first
    | rfl
    | exact Null.add_sat_eq s hw a b
    | cfg_absurd h

theorem i_sub_sat_eq {c : Cfg} (h : c.Ok) (hw : w = 8 ∨ w = 16) {r : Reg}
    (hr : c.hasInt w r = true) (s : Bool) (a b : Vec w n) :
    i_sub_sat c s r a b = some (fun i => lane w (clamp s w (val s (a i) - val s (b i)))) := by
  have hh : (if s then Hw.subs_s a b else Hw.subs_u a b) =
      fun i => lane w (clamp s w (val s (a i) - val s (b i))) := by cases s <;> rfl
  unfold i_sub_sat
  rw [hh]
  have : w ≤ 16 := by omega
  split <;> split_ifs <;>
    first
    | rfl
    | exact Null.sub_sat_eq s hw a b
    | cfg_absurd h

theorem val_lane_clamp (s : Bool) (hw : 0 < w) (z : Int) :
    val s (lane w (clamp s w z)) = clamp s w z := by
  have hlh : lo s w ≤ hi s w := by
    have : (0:Int) < 2 ^ (w - 1) := by positivity
    have : (0:Int) < 2 ^ w := by positivity
    cases s <;> simp only [lo, hi, if_true, Bool.false_eq_true, if_false] <;> omega
  apply val_lane_of_range hw <;> unfold clamp <;> split_ifs <;> omega

/-- C02: each lane denotes the exact sum clamped to the element type's range. -/
theorem C02_add_sat {c : Cfg} (h : c.Ok) (hw : w = 8 ∨ w = 16) {r : Reg}
    (hr : c.hasInt w r = true) (s : Bool) (a b : Vec w n) :
    ∃ res, i_add_sat c s r a b = some res ∧
      ∀ i, val s (res i) = clamp s w (val s (a i) + val s (b i)) :=
  ⟨_, i_add_sat_eq h hw hr s a b, fun _ => val_lane_clamp s (by omega) _⟩

/-- C02: each lane denotes the exact difference clamped to the element type's range. -/
theorem C02_sub_sat {c : Cfg} (h : c.Ok) (hw : w = 8 ∨ w = 16) {r : Reg}
    (hr : c.hasInt w r = true) (s : Bool) (a b : Vec w n) :
    ∃ res, i_sub_sat c s r a b = some res ∧
      ∀ i, val s (res i) = clamp s w (val s (a i) - val s (b i)) :=
  ⟨_, i_sub_sat_eq h hw hr s a b, fun _ => val_lane_clamp s (by omega) _⟩

theorem C02_add_sat_long {c : Cfg} (h : c.Ok) (hw : w = 8 ∨ w = 16) {r : Reg}
    (hr : c.hasInt w r = true) (s : Bool) {k L : Nat} (a b d : Fin k → Vec w L) :
    ∃ res, Arr.apply2 (i_add_sat c s r) a b 0 d = some res ∧
      ∀ j, val s (Arr.flat res j) = clamp s w (val s (Arr.flat a j) + val s (Arr.flat b j)) := by
  obtain ⟨res, h1, h2⟩ := C25_apply2 (i_add_sat c s r)
    (fun x y => lane w (clamp s w (val s x + val s y))) (i_add_sat_eq h hw hr s) a b d
  exact ⟨res, h1, fun j => by rw [h2 j]; exact val_lane_clamp s (by omega) _⟩

theorem C02_sub_sat_long {c : Cfg} (h : c.Ok) (hw : w = 8 ∨ w = 16) {r : Reg}
    (hr : c.hasInt w r = true) (s : Bool) {k L : Nat} (a b d : Fin k → Vec w L) :
    ∃ res, Arr.apply2 (i_sub_sat c s r) a b 0 d = some res ∧
      ∀ j, val s (Arr.flat res j) = clamp s w (val s (Arr.flat a j) - val s (Arr.flat b j)) := by
  obtain ⟨res, h1, h2⟩ := C25_apply2 (i_sub_sat c s r)
    (fun x y => lane w (clamp s w (val s x - val s y))) (i_sub_sat_eq h hw hr s) a b d
  exact ⟨res, h1, fun j => by rw [h2 j]; exact val_lane_clamp s (by omega) _⟩

/-! ## neg (C07) -/

/-- Portable `neg` is defined on every lane of 8 and 16 bits, and on every 32/64-bit lane
other than the minimum. -/
theorem nullNeg_lane (hw : IsW w) (x : BitVec w) (hx : w ≤ 16 ∨ x ≠ BitVec.intMin w) :
    (C.neg (C.lane true x)).map (C.toLane w) = some (- x) := by
  have e : ∀ (u : Nat) (y : BitVec u), BitVec.ofInt u (- y.toInt) = - y := fun u y => by
    rw [BitVec.ofInt_neg, BitVec.ofInt_toInt]
  rcases hw with rfl | rfl | rfl | rfl
  · have := C.toInt_bounds8 x
    show Option.map _ (C.arith C.int32 (- C.wrap C.int32 x.toInt)) = _
    rw [C.wrap_i32 (by omega) (by omega), C.arith_i32 (by omega) (by omega)]
    simp [C.toLane, e]
  · have := C.toInt_bounds16 x
    show Option.map _ (C.arith C.int32 (- C.wrap C.int32 x.toInt)) = _
    rw [C.wrap_i32 (by omega) (by omega), C.arith_i32 (by omega) (by omega)]
    simp [C.toLane, e]
  · have := C.toInt_bounds32 x
    have hx' : x ≠ BitVec.intMin 32 := by simpa using hx
    have : x.toInt ≠ -2147483648 := fun h0 => hx' (BitVec.eq_of_toInt_eq (by rw [h0]; decide))
    show Option.map _ (C.arith C.int32 (- C.wrap C.int32 x.toInt)) = _
    rw [C.wrap_i32 (by omega) (by omega), C.arith_i32 (by omega) (by omega)]
    simp [C.toLane, e]
  · have := C.toInt_bounds64 x
    have hx' : x ≠ BitVec.intMin 64 := by simpa using hx
    have : x.toInt ≠ -9223372036854775808 := fun h0 => hx' (BitVec.eq_of_toInt_eq (by rw [h0]; decide))
    show Option.map _ (C.arith C.int64 (- C.wrap C.int64 x.toInt)) = _
    rw [C.wrap_i64 (by omega) (by omega), C.arith_i64 (by omega) (by omega)]
    simp [C.toLane, e]

/-- The builds whose `neg` goes through the portable backend for lane width `w`. -/
def negPortable (c : Cfg) (w : Nat) : Prop :=
  c.null = true ∨ (w = 64 ∧ c.altivec = true ∧ ¬ c.vsx207 = true)

theorem i_ineg_eq {c : Cfg} (h : c.Ok) (hw : IsW w) {r : Reg} (hr : c.hasInt w r = true)
    (a : Vec w n)
    (hx : r = .r128 → negPortable c w → w ≤ 16 ∨ ∀ i, a i ≠ BitVec.intMin w) :
    i_ineg c r a = some (fun i => - a i) := by
  have hs : ∀ r, c.hasInt w r = true → i_isub c r (Vec.splat 0) a = some (fun i => - a i) := by
    intro r hr; rw [i_isub_eq h hw hr]; simp
  have hn : (w ≤ 16 ∨ ∀ i, a i ≠ BitVec.intMin w) → Null.neg true a = some (fun i => - a i) := by
    intro hx
    exact lanesM_eq_some.2 fun i => nullNeg_lane hw _ (hx.imp id fun f => f i)
  unfold i_ineg
  split
  · specialize hx rfl
    have h1 := hs .r128 rfl
    split_ifs with e1 e2 e3 e4 e5 e6
    · exact h1
    · apply hn; apply hx
      rcases e3 with e3 | e3
      · exact Or.inl e3
      · refine Or.inr ⟨e1, e3, fun e => e2 (Or.inr (Or.inr (Or.inl e)))⟩
    · cfg_absurd h
    · exact hn (hx (Or.inl e4))
    · exact h1
    · rfl
    · cfg_absurd h
  · rw [if_pos (show c.avx2 = true from hr)]; exact hs _ hr
  · rw [if_pos hr]; exact hs _ hr

/-- C07 (neg), partial: each lane is `-a` modulo `2^w` on every configuration, except that the
portable backend is only covered for 32- and 64-bit lanes that are not the minimum value
(there the C++ expression `-x` overflows; see `C07_neg_portable_ub`). -/
theorem C07_neg_partial {c : Cfg} (h : c.Ok) (hw : IsW w) {r : Reg} (hr : c.hasInt w r = true)
    (a : Vec w n)
    (hx : r = .r128 → negPortable c w → w ≤ 16 ∨ ∀ i, a i ≠ BitVec.intMin w) :
    ∃ res, i_ineg c r a = some res ∧ ∀ i, res i = lane w (- val true (a i)) :=
  ⟨_, i_ineg_eq h hw hr a hx, fun i => by
    simp only [lane, val, if_true]; rw [BitVec.ofInt_neg, BitVec.ofInt_toInt]⟩

/-- C07, with no side condition, on every build that has any SIMD instruction set
(64-bit lanes: and is not AltiVec without VSX 2.07). -/
theorem C07_neg_simd {c : Cfg} (h : c.Ok) (hw : IsW w) {r : Reg} (hr : c.hasInt w r = true)
    (hc : ¬ negPortable c w) (a : Vec w n) :
    ∃ res, i_ineg c r a = some res ∧ ∀ i, res i = lane w (- val true (a i)) :=
  C07_neg_partial h hw hr a fun _ hp => absurd hp hc

/-- Negation of the unrestricted C07/C04 for the portable backend: negating a 32-bit
vector containing the minimum value is undefined behaviour. -/
theorem C07_neg_portable_ub (a : Vec 32 n) (i : Fin n) (hi : a i = BitVec.intMin 32) :
    i_ineg Cfg.portable .r128 a = none := by
  show Null.neg true a = none
  refine lanesM_eq_none.2 ⟨i, ?_⟩
  rw [hi]; decide

theorem C07_neg_portable_ub64 (a : Vec 64 n) (i : Fin n) (hi : a i = BitVec.intMin 64) :
    i_ineg Cfg.portable .r128 a = none := by
  show Null.neg true a = none
  refine lanesM_eq_none.2 ⟨i, ?_⟩
  rw [hi]; decide

/-! ## Non-vacuity: concrete runs -/

/-- The theorems apply to real configurations: 200 + 100 wraps to 44 on SSE2, NEON, AVX2 … -/
example : (∃ res, i_iadd Cfg.sse2Only .r128 (fun _ : Fin 16 => 200#8) (fun _ => 100#8) = some res ∧
    ∀ i, res i = 44#8) ∧
    (∃ res, i_iadd Cfg.portable .r128 (fun _ : Fin 16 => 200#8) (fun _ => 100#8) = some res ∧
    ∀ i, res i = 44#8) := by
  constructor
  · obtain ⟨res, h1, h2⟩ := C01_add Cfg.sse2Only_ok (Or.inl rfl) (r := .r128) rfl false
      (fun _ : Fin 16 => 200#8) (fun _ => 100#8)
    exact ⟨res, h1, fun i => (h2 i).trans (by decide)⟩
  · obtain ⟨res, h1, h2⟩ := C01_add Cfg.portable_ok (Or.inl rfl) (r := .r128) rfl false
      (fun _ : Fin 16 => 200#8) (fun _ => 100#8)
    exact ⟨res, h1, fun i => (h2 i).trans (by decide)⟩

/-- Saturation bites: -100 - 100 = -128 in signed bytes, 10 - 20 = 0 in unsigned bytes. -/
example : (∃ res, i_sub_sat Cfg.avx2Only true .r256 (fun _ : Fin 32 => 156#8) (fun _ => 100#8) = some res ∧
    ∀ i, val true (res i) = -128) ∧
    (∃ res, i_sub_sat Cfg.portable false .r128 (fun _ : Fin 16 => 10#8) (fun _ => 20#8) = some res ∧
    ∀ i, val false (res i) = 0) := by
  constructor
  · obtain ⟨res, h1, h2⟩ := C02_sub_sat Cfg.avx2Only_ok (Or.inl rfl) (r := .r256) rfl true
      (fun _ : Fin 32 => 156#8) (fun _ => 100#8)
    exact ⟨res, h1, fun i => (h2 i).trans (by decide)⟩
  · obtain ⟨res, h1, h2⟩ := C02_sub_sat Cfg.portable_ok (Or.inl rfl) (r := .r128) rfl false
      (fun _ : Fin 16 => 10#8) (fun _ => 20#8)
    exact ⟨res, h1, fun i => (h2 i).trans (by decide)⟩

/-- `neg` of INT_MIN on SSE2 is INT_MIN; `C07_neg_simd`'s hypotheses hold there. -/
example : ∃ res, i_ineg Cfg.sse2Only .r128 (fun _ : Fin 4 => BitVec.intMin 32) = some res ∧
    ∀ i, res i = BitVec.intMin 32 := by
  obtain ⟨res, h1, h2⟩ := C07_neg_simd Cfg.sse2Only_ok (Or.inr (Or.inr (Or.inl rfl))) (r := .r128) rfl
    (by simp [negPortable, Cfg.sse2Only, Cfg.portable]) (fun _ : Fin 4 => BitVec.intMin 32)
  exact ⟨res, h1, fun i => (h2 i).trans (by decide)⟩

/-- Portable `neg` on non-minimal values. -/
example : ∃ res, i_ineg Cfg.portable .r128 (fun _ : Fin 4 => 5#32) = some res ∧
    ∀ i, res i = 4294967291#32 := by
  obtain ⟨res, h1, h2⟩ := C07_neg_partial Cfg.portable_ok (Or.inr (Or.inr (Or.inl rfl))) (r := .r128) rfl
    (fun _ : Fin 4 => 5#32) (fun _ _ => Or.inr fun _ => by decide)
  exact ⟨res, h1, fun i => (h2 i).trans (by decide)⟩

end Simdpp
