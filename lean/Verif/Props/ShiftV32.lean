import Verif.Props.ShiftVAll

/-! Shifts of 32-bit lanes by a vector of counts. -/

namespace Simdpp
open Spec Sh

variable {w v n : Nat}

theorem blend16_32 (a b : Vec 32 4) {imm : Nat} {f : Nat → Bool}
    (hf : ∀ j : Fin 8, imm.testBit j = f (j.val / 2)) :
    (Hw.blend_epi16 (a.recast 16 8 : Vec 16 8) (b.recast 16 8) imm).recast 32 4 = fun i => if f i.val then b i else a i := by
  have e : Hw.blend_epi16 (a.recast 16 8 : Vec 16 8) (b.recast 16 8) imm =
      Vec.recast (w := 32) (n := 4) 16 8 (fun i => if f i.val then b i else a i) := by
    refine ext_at fun t ht => ?_
    rw [recast_at (by decide) (q := 2) (by decide) rfl rfl, Vec.at_lt _ ht, Vec.at_lt _ (show t / 2 < 4 by omega)]
    unfold Hw.blend_epi16
    dsimp only
    rw [Nat.mod_eq_of_lt ht, hf ⟨t, ht⟩]
    have ea : a.recast 16 8 ⟨t, ht⟩ = (a ⟨t / 2, by omega⟩).extractLsb' (t % 2 * 16) 16 := by
      rw [← Vec.at_lt (a.recast 16 8) ht, recast_at (by decide) (q := 2) (by decide) rfl rfl, Vec.at_lt _ (show t / 2 < 4 by omega)]
    have eb : b.recast 16 8 ⟨t, ht⟩ = (b ⟨t / 2, by omega⟩).extractLsb' (t % 2 * 16) 16 := by
      rw [← Vec.at_lt (b.recast 16 8) ht, recast_at (by decide) (q := 2) (by decide) rfl rfl, Vec.at_lt _ (show t / 2 < 4 by omega)]
    rw [ea, eb]
    split_ifs <;> rfl
  rw [e, Vec.recast_recast _ (by decide) (by decide)]

theorem count64_eq (x : Vec 32 4) (h1 : x 1 = 0) : Hw.count64 x = (x 0).toNat := by
  unfold Hw.count64
  have e : (x.recast 64 1 : Vec 64 1) 0 = (x 0).setWidth 64 := by
    apply BitVec.eq_of_getLsbD_eq
    intro j hj
    rw [Vec.recast_getLsbD, BitVec.getLsbD_setWidth]
    simp only [Vec.bit, hj, decide_true, Bool.true_and, Fin.val_zero, Nat.zero_mul, Nat.zero_add]
    by_cases g : j < 32
    · rw [Nat.div_eq_of_lt g, Nat.mod_eq_of_lt g]; rfl
    · rw [show j / 32 = 1 by omega, BitVec.getLsbD_of_ge (x 0) j (by omega)]
      show (x 1).getLsbD _ = false
      rw [h1]; simp
  rw [e, BitVec.toNat_setWidth, Nat.mod_eq_of_lt]
  have := (x 0).isLt; omega

theorem srl64_lanes (k : Vec 32 4) : let y : Vec 32 4 := (Hw.srl (k.recast 64 2 : Vec 64 2) 32).recast 32 4
    y 0 = k 1 ∧ y 1 = 0 := by
  have e : ∀ t, t < 2 → ((Hw.srl (k.recast 64 2 : Vec 64 2) 32).recast 32 4 : Vec 32 4).at_ t =
      ((k.recast 64 2 : Vec 64 2).at_ 0 >>> 32).extractLsb' (t * 32) 32 := fun t ht => by
    rw [recast_at (by decide) (q := 2) (by decide) rfl rfl, show t / 2 = 0 by omega, show t % 2 = t by omega]
    rfl
  have e1 : k.at_ 1 = ((k.recast 64 2 : Vec 64 2).at_ 0).extractLsb' (1 * 32) 32 := by
    have := recast_at (v := 32) (w := 64) (n := 2) (m := 4) (q := 2) (by decide) (by decide) rfl rfl (k.recast 64 2) 1
    rw [Vec.recast_recast _ (by decide) (by decide)] at this
    exact this
  refine ⟨(e 0 (by decide)).trans (Eq.trans ?_ e1.symm), (e 1 (by decide)).trans ?_⟩
  · apply BitVec.eq_of_getLsbD_eq; intro j hj
    simp only [BitVec.getLsbD_extractLsb', BitVec.getLsbD_ushiftRight]; grind
  · apply BitVec.eq_of_getLsbD_eq; intro j hj
    simp only [BitVec.getLsbD_extractLsb', BitVec.getLsbD_ushiftRight, BitVec.getLsbD_zero]
    rw [BitVec.getLsbD_of_ge _ _ (by omega)]; simp

theorem bsrli_lanes (k : Vec 32 4) {s : Nat} (hs : s ≤ 4) :
    (Hw.bsrli (k.recast 8 16 : Vec 8 16) (s * 4)).recast 32 4 = gather 4 (fun j => j + s) k (Vec.splat 0) := by
  have e := onBytes_l (w := 32) (n := 4) (r := .r128) iw32 rfl (t := s) (op := fun x => some (Hw.bsrli x (s * (32 / 8)))) k
    (fun x => congrArg some (Hw.bsrli_eq (by omega) x))
  exact Option.some.inj e

theorem vec4_ext {w : Nat} {p q r s : BitVec w} (x : Vec w 4) (h0 : x 0 = p) (h1 : x 1 = q) (h2 : x 2 = r) (h3 : x 3 = s) :
    x = vec4 p q r s := by
  funext i
  obtain rfl | rfl | rfl | rfl : i = 0 ∨ i = 1 ∨ i = 2 ∨ i = 3 := by omega
  exacts [h0, h1, h2, h3]

theorem sseShiftV32_eq {c : Cfg} (h : c.Ok) (hc : c.sse2 = true) {op : Vec 32 4 → Nat → Vec 32 4} {f : BitVec 32 → Nat → BitVec 32}
    (hop : ∀ a q, q < 32 → op a q = fun i => f (a i) q) (a k : Vec 32 4) (hk : ∀ i, (k i).toNat < 32) :
    sseShiftV32 c op a k = some (fun i => f (a i) (k i).toNat) := by
  have hcount0 : sseCount0 c k = some (vec4 (k 0) 0 (k 2) 0) := by
    unfold sseCount0
    split_ifs
    · refine congrArg some ?_
      have e0 : (Vec.splat 0 : Vec 16 8) = (Vec.splat 0 : Vec 32 4).recast 16 8 := (recast_zero ..).symm
      rw [e0, blend16_32 (f := fun j => j % 2 == 1) _ _ (by decide)]
      exact vec4_ext _ rfl rfl rfl rfl
    · rw [i_bit_and_eq h (k := .int) iw32 (r := .r128) rfl]
      refine congrArg some (vec4_ext _ (BitVec.and_allOnes ..) (BitVec.and_zero ..) (BitVec.and_allOnes ..) (BitVec.and_zero ..))
  have hc0 : Hw.count64 (vec4 (k 0) 0 (k 2) 0 : Vec 32 4) = (k 0).toNat := count64_eq _ rfl
  have hc1 := count64_eq _ (srl64_lanes k).2
  rw [(srl64_lanes k).1] at hc1
  have hc2 : Hw.count64 ((Hw.bsrli (Vec.recast (w := 32) (n := 4) 8 16 (vec4 (k 0) 0 (k 2) 0)) 8).recast 32 4 : Vec 32 4) = (k 2).toNat := by
    rw [bsrli_lanes (s := 2) _ (by decide)]
    exact count64_eq _ rfl
  have hc3 : Hw.count64 ((Hw.bsrli (k.recast 8 16 : Vec 8 16) 12).recast 32 4 : Vec 32 4) = (k 3).toNat := by
    rw [bsrli_lanes (s := 3) _ (by decide)]
    exact count64_eq _ rfl
  unfold sseShiftV32
  refine (bind_of hcount0 _).trans ?_
  dsimp only
  rw [hc0, hc1, hc2, hc3, hop _ _ (hk 0), hop _ _ (hk 1), hop _ _ (hk 2), hop _ _ (hk 3)]
  split_ifs
  · refine congrArg some ?_
    have e1 := blend16_32 (imm := 0x0c) (f := fun j => j == 1) (fun i => f (a i) (k 0).toNat) (fun i => f (a i) (k 1).toNat) (by decide)
    have e2 := blend16_32 (imm := 0xc0) (f := fun j => j == 3) (fun i => f (a i) (k 2).toNat) (fun i => f (a i) (k 3).toNat) (by decide)
    have e1' := congrArg (fun x : Vec 32 4 => x.recast 16 8) e1
    have e2' := congrArg (fun x : Vec 32 4 => x.recast 16 8) e2
    rw [Vec.recast_recast _ (by decide) (by decide)] at e1' e2'
    rw [e1', e2', blend16_32 (f := fun j => decide (2 ≤ j)) _ _ (by decide)]
    exact (vec4_ext _ rfl rfl rfl rfl).trans (vec4_ext (fun i => f (a i) (k i).toNat) rfl rfl rfl rfl).symm
  · refine congrArg some ((vec4_ext _ ?_ ?_ ?_ ?_).trans
      (vec4_ext (fun i => f (a i) (k i).toNat) rfl rfl rfl rfl).symm) <;> rfl

theorem sseShiftV_eq {c : Cfg} (h : c.Ok) (hc : c.sse2 = true) {op : Vec 32 4 → Nat → Vec 32 4} {f : BitVec 32 → Nat → BitVec 32}
    (hop : ∀ a q, q < 32 → op a q = fun i => f (a i) q) (hn : n = 4) (a k : Vec 32 n) (hk : ∀ i, (k i).toNat < 32) :
    sseShiftV c op a k = some (fun i => f (a i) (k i).toNat) := by
  subst hn
  have e : ∀ x : Vec 32 4, Hw.part 4 0 x = x := fun x => ext_at fun t ht => by
    rw [Hw.part_at _ ht, Nat.zero_mul, Nat.zero_add]
  unfold sseShiftV
  rw [e, e, sseShiftV32_eq h hc hop a k hk, Option.map_some, e]

section
variable {c : Cfg} (h : c.Ok) {r : Reg} (hr : c.hasInt 32 r = true) (hn : n = r.lanes 32) (a k : Vec 32 n) (hk : ∀ i, (k i).toNat < 32)
include h hr hn hk

theorem i_shift_l_v32_eq (hc : c.hasShiftLV 32) : i_shift_l_v32 c r a k = some (fun i => a i <<< (k i).toNat) := by
  unfold i_shift_l_v32
  cases r
  case r512 => exact (if_pos hr).trans (congrArg some (sllv_eq hk))
  case r256 => exact (if_pos hr).trans (congrArg some (sllv_eq hk))
  dsimp only
  by_cases g1 : c.null = true
  · rw [if_pos g1]; exact Null.shift_l_v_eq hk iw32
  rw [if_neg g1]
  split_ifs with g2 g3 g4 g5 g6
  · exact congrArg some (sllv_eq hk)
  · exact sseShiftV_eq h g3 (f := fun x q => x <<< q) (fun a q hq => by funext i; simp [Hw.sll, hq]) hn a k hk
  · exact congrArg some (vshl_u_eq hk iw32)
  · exact congrArg some (sl_mod_eq hk)
  · exact congrArg some (sl_mod_eq hk)
  · simp only [Cfg.hasShiftLV] at hc
    clear hr hk hn a k; cfg_absurd h

theorem i_shift_r_v32_eq (s : Bool) (hc : c.hasShiftRV s 32) :
    i_shift_r_v32 c s r a k = some (fun i => bshr s (a i) (k i).toNat) := by
  have x86 : (if s then Hw.srav a k else Hw.srlv a k) = fun i => bshr s (a i) (k i).toNat := by
    cases s
    · exact srlv_eq hk
    · exact srav_eq hk
  unfold i_shift_r_v32
  cases r
  case r512 => exact (if_pos hr).trans (congrArg some x86)
  case r256 => exact (if_pos hr).trans (congrArg some x86)
  dsimp only
  by_cases g1 : c.null = true
  · rw [if_pos g1]; exact Null.shift_r_v_eq hk iw32 s
  rw [if_neg g1]
  by_cases g2 : c.avx2 = true
  · exact (if_pos g2).trans (congrArg some x86)
  rw [if_neg g2]
  by_cases g3 : c.sse2 = true
  · rw [if_pos g3]
    refine sseShiftV_eq h g3 (f := fun x q => bshr s x q) (fun a q hq => ?_) hn a k hk
    funext i
    cases s <;> simp [Hw.srl, Hw.sra, bshr, hq]
  rw [if_neg g3]
  by_cases g4 : c.neon = true
  · exact (if_pos g4).trans (neonShrV_eq hk h g4 iw32 s)
  rw [if_neg g4]
  split_ifs with g5 g6
  · exact congrArg some (modShr_eq hk s)
  · exact congrArg some (modShr_eq hk s)
  · simp [Cfg.hasShiftRV] at hc
    clear x86 hr hk hn a k; cfg_absurd h

end

theorem flat_all {α : Type} {P : α → Prop} {L m : Nat} {k : Fin m → Fin L → α} (hk : ∀ j, P (Arr.flat k j)) (p : Fin m) (i : Fin L) :
    P (k p i) := by
  have hi := i.isLt
  have hp := p.isLt
  have hlt : p.val * L + i.val < m * L := by
    calc p.val * L + i.val < p.val * L + L := by omega
      _ = (p.val + 1) * L := by ring
      _ ≤ m * L := Nat.mul_le_mul_right _ hp
  have := hk ⟨p.val * L + i.val, hlt⟩
  unfold Arr.flat at this
  have e1 : (p.val * L + i.val) / L = p.val := by
    rw [Nat.mul_comm, Nat.mul_add_div (by omega), Nat.div_eq_of_lt hi, Nat.add_zero]
  have e2 : (p.val * L + i.val) % L = i.val := by rw [Nat.mul_comm, Nat.mul_add_mod, Nat.mod_eq_of_lt hi]
  simpa only [e1, e2] using this

section
variable {c : Cfg} (h : c.Ok) {r : Reg} (hr : c.hasInt w r = true) (hn : n = r.lanes w) (a k : Vec w n) (hk : ∀ i, (k i).toNat < w)
include h hr hn hk

theorem shift_l_v_eq (hw : w = 8 ∨ w = 16 ∨ w = 32) (hc : c.hasShiftLV w) :
    shift_l_v c r a k = some (fun i => a i <<< (k i).toNat) := by
  unfold shift_l_v
  rw [if_pos hc]
  rcases hw with e | e | e <;> subst e
  · exact i_shift_l_v8_eq h hr hn a k hk hc
  · exact i_shift_l_v16_eq h hr hn a k hk hc
  · exact i_shift_l_v32_eq h hr hn a k hk hc

theorem shift_r_v_eq (s : Bool) (hw : w = 8 ∨ w = 16 ∨ w = 32) (hc : c.hasShiftRV s w) :
    shift_r_v c s r a k = some (fun i => bshr s (a i) (k i).toNat) := by
  unfold shift_r_v
  rw [if_pos hc]
  rcases hw with e | e | e <;> subst e
  · exact i_shift_r_v8_eq h hr hn a k hk s hc
  · cases s
    · exact i_shift_r_v16u_eq h hr hn a k hk hc
    · exact i_shift_r_v16s_eq h hr a k hk hc
  · exact i_shift_r_v32_eq h hr hn a k hk s hc

/-! ## C10 -/

/-- C10: `shift_l(v, counts)` multiplies lane `i` by `2^counts[i]` modulo `2^w`, for all counts below `w`, whenever the
capability macro says the function exists. -/
theorem C10_shift_l (s : Bool) (hw : w = 8 ∨ w = 16 ∨ w = 32) (hc : c.hasShiftLV w) :
    ∃ res, shift_l_v c r a k = some res ∧ ∀ i, res i = lane w (val s (a i) * 2 ^ (k i).toNat) :=
  ⟨_, shift_l_v_eq h hr hn a k hk hw hc, fun _ => shl_spec s _ _⟩

/-- C10: `shift_r(v, counts)` divides lane `i` by `2^counts[i]` rounding down, so copies of the sign enter signed lanes and
zeros unsigned lanes. -/
theorem C10_shift_r (s : Bool) (hw : w = 8 ∨ w = 16 ∨ w = 32) (hc : c.hasShiftRV s w) :
    ∃ res, shift_r_v c s r a k = some res ∧ ∀ i, val s (res i) = val s (a i) / 2 ^ (k i).toNat :=
  ⟨_, shift_r_v_eq h hr hn a k hk s hw hc, fun _ => val_bshr s _ _⟩

omit hk in
/-- C10: with the same count in every lane the result is that of the shift by a scalar. -/
theorem C10_uniform (s : Bool) (hw : w = 8 ∨ w = 16 ∨ w = 32) {q : Nat} (hq : q < w) :
    (c.hasShiftLV w → shift_l_v c r a (Vec.splat (BitVec.ofNat w q)) = i_shift_l c r a q) ∧
    (c.hasShiftRV s w → shift_r_v c s r a (Vec.splat (BitVec.ofNat w q)) = i_shift_r c s r a q) := by
  have hw' : IsW w := by
    rcases hw with e | e | e <;> subst e
    exacts [isW8, iw16, iw32]
  have hn2 : n % 2 = 0 := by subst hn; rcases hw with e | e | e <;> subst e <;> cases r <;> decide
  have e : (BitVec.ofNat w q).toNat = q := by
    rw [BitVec.toNat_ofNat, Nat.mod_eq_of_lt]; exact hq.trans Nat.lt_two_pow_self
  have hk : ∀ i, ((Vec.splat (BitVec.ofNat w q) : Vec w n) i).toNat < w := fun i => by rw [Vec.splat, e]; exact hq
  constructor <;> intro hc
  · rw [shift_l_v_eq h hr hn a _ hk hw hc, i_shift_l_eq h hw' hr hn2 a hq]
    simp only [Vec.splat, e]
  · rw [shift_r_v_eq h hr hn a _ hk s hw hc, i_shift_r_eq h s hw' hr hn2 a hq]
    simp only [Vec.splat, e]

omit hr hn hk a k in
/-- C10 for vectors of any length. -/
theorem C10_shift_l_long {L m : Nat} (hr : c.hasInt w r = true) (hn : L = r.lanes w) (s : Bool) (hw : w = 8 ∨ w = 16 ∨ w = 32)
    (hc : c.hasShiftLV w) (a k d : Fin m → Vec w L) (hk : ∀ j, (Arr.flat k j).toNat < w) :
    ∃ res, Arr.apply2 (shift_l_v c r) a k 0 d = some res ∧
      ∀ j, Arr.flat res j = lane w (val s (Arr.flat a j) * 2 ^ (Arr.flat k j).toNat) := by
  refine ⟨fun p i => a p i <<< (k p i).toNat, (Arr.apply2_spec _ a k (fun p i => a p i <<< (k p i).toNat) (fun p => ?_) 0 d).trans
    (congrArg some (funext fun p => if_pos (Nat.zero_le _))), fun j => ?_⟩
  · exact shift_l_v_eq h hr hn _ _ (fun i => flat_all (P := fun x => BitVec.toNat x < w) hk p i) hw hc
  · exact shl_spec s _ _

omit hr hn hk a k in
/-- C10 for vectors of any length. -/
theorem C10_shift_r_long {L m : Nat} (hr : c.hasInt w r = true) (hn : L = r.lanes w) (s : Bool) (hw : w = 8 ∨ w = 16 ∨ w = 32)
    (hc : c.hasShiftRV s w) (a k d : Fin m → Vec w L) (hk : ∀ j, (Arr.flat k j).toNat < w) :
    ∃ res, Arr.apply2 (shift_r_v c s r) a k 0 d = some res ∧
      ∀ j, val s (Arr.flat res j) = val s (Arr.flat a j) / 2 ^ (Arr.flat k j).toNat := by
  refine ⟨fun p i => bshr s (a p i) (k p i).toNat,
    (Arr.apply2_spec _ a k (fun p i => bshr s (a p i) (k p i).toNat) (fun p => ?_) 0 d).trans
    (congrArg some (funext fun p => if_pos (Nat.zero_le _))), fun j => ?_⟩
  · exact shift_r_v_eq h hr hn _ _ (fun i => flat_all (P := fun x => BitVec.toNat x < w) hk p i) s hw hc
  · exact val_bshr s _ _

end

/-- C10: where a capability macro is 0 the function does not exist: a program using it is rejected by the compiler. -/
theorem C10_rejects (c : Cfg) (s : Bool) (r : Reg) (a k : Vec w n) :
    (¬ c.hasShiftLV w → shift_l_v c r a k = none) ∧ (¬ c.hasShiftRV s w → shift_r_v c s r a k = none) :=
  ⟨fun g => if_neg g, fun g => if_neg g⟩

/-- C10: the macros for 16-bit signed lanes are 0 on AVX2, although those for unsigned lanes are 1. -/
theorem C10_int16_avx2 : Cfg.avx2Only.hasShiftRV false 16 ∧ ¬ Cfg.avx2Only.hasShiftRV true 16 := by
  constructor
  · decide
  · decide

/-- Non-vacuity: bytes with different counts on SSSE3 (multiplication), 32-bit lanes on SSE2 (four shifts). -/
example (a : Vec 8 16) : ∃ res, shift_l_v Cfg.ssse3Only .r128 a (fun i => BitVec.ofNat 8 (i.val % 8)) = some res ∧
    ∀ i, res i = lane 8 (val true (a i) * 2 ^ (BitVec.ofNat 8 (i.val % 8)).toNat) :=
  C10_shift_l Cfg.ssse3Only_ok (r := .r128) rfl rfl a _ (by decide) true (Or.inl rfl) (by decide)
example (a : Vec 8 16) : ∃ res, shift_r_v Cfg.ssse3Only true .r128 a (fun i => BitVec.ofNat 8 (i.val % 8)) = some res ∧
    ∀ i, val true (res i) = val true (a i) / 2 ^ (BitVec.ofNat 8 (i.val % 8)).toNat :=
  C10_shift_r Cfg.ssse3Only_ok (r := .r128) rfl rfl a _ (by decide) true (Or.inl rfl) (by decide)
example (a : Vec 32 4) : ∃ res, shift_r_v Cfg.sse2Only true .r128 a (fun i => BitVec.ofNat 32 (i.val * 10)) = some res ∧
    ∀ i, val true (res i) = val true (a i) / 2 ^ (BitVec.ofNat 32 (i.val * 10)).toNat :=
  C10_shift_r Cfg.sse2Only_ok (r := .r128) rfl rfl a _ (by decide) true (Or.inr (Or.inr rfl)) (by decide)
example (a : Vec 16 8) : ∃ res, shift_r_v Cfg.neonA64 false .r128 a (fun i => BitVec.ofNat 16 (i.val * 2)) = some res ∧
    ∀ i, val false (res i) = val false (a i) / 2 ^ (BitVec.ofNat 16 (i.val * 2)).toNat :=
  C10_shift_r Cfg.neonA64_ok (r := .r128) rfl rfl a _ (by decide) false (Or.inr (Or.inl rfl)) (by decide)

end Simdpp
