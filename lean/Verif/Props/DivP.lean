import Verif.Props.DivPLemmas

/-!
# C11: reduced-precision division
-/

namespace Simdpp
open Spec Sh

variable {w n : Nat}

theorem byteL {A : BitVec 16} (h : (A.extractLsb' (0 * 8) 8).getLsbD 7 = false) {b : Nat} (hb : b < 2) :
    (A <<< 1).extractLsb' (b * 8) 8 = A.extractLsb' (b * 8) 8 <<< 1 := by
  have h' : A.getLsbD 7 = false := by simpa using h
  obtain rfl | rfl : b = 0 ∨ b = 1 := by omega
  · bits16
  · apply BitVec.eq_of_getLsbD_eq
    intro j hj
    simp only [BitVec.getLsbD_extractLsb', BitVec.getLsbD_shiftLeft]
    by_cases g : j = 0
    · subst g; simpa using h'
    · grind

theorem byteR {A : BitVec 16} {k : Nat} (hk : k < 8) (h : ∀ j, j < k → (A.extractLsb' (1 * 8) 8).getLsbD j = false) {b : Nat} (hb : b < 2) :
    (A >>> k).extractLsb' (b * 8) 8 = A.extractLsb' (b * 8) 8 >>> k := by
  have h' : ∀ j, j < k → A.getLsbD (8 + j) = false := fun j hj => by
    have := h j hj
    rw [BitVec.getLsbD_extractLsb'] at this
    simpa [show j < 8 by omega] using this
  obtain rfl | rfl : b = 0 ∨ b = 1 := by omega
  · apply BitVec.eq_of_getLsbD_eq
    intro j hj
    simp only [BitVec.getLsbD_extractLsb', BitVec.getLsbD_ushiftRight]
    by_cases g : k + j < 8
    · grind
    · have := h' (k + j - 8) (by omega)
      rw [show 8 + (k + j - 8) = k + j by omega] at this
      simp [g, this, show ¬ k + j < 8 by omega]
  · bits16

theorem via16_of (hn : n % 2 = 0) {f : Vec 16 (n / 2) → Option (Vec 16 (n / 2))} {g : BitVec 16 → BitVec 16} {g8 : BitVec 8 → BitVec 8}
    (a : Vec 8 n) (hf : f (as16 a) = some (fun i => g (as16 a i)))
    (h : ∀ i b, b < 2 → (g (as16 a i)).extractLsb' (b * 8) 8 = g8 ((as16 a i).extractLsb' (b * 8) 8)) :
    via16 f a = some (fun i => g8 (a i)) := by
  unfold via16
  have e : f (a.recast 16 (n / 2)) = _ := hf
  rw [e, Option.map_some]
  refine congrArg some (ext_at fun t ht => ?_)
  have ht2 : t / 2 < n / 2 := by omega
  rw [recast_at (by decide) (q := 2) (by decide) rfl (by omega), Vec.at_lt _ ht2, h _ _ (by omega), Vec.at_lt _ ht]
  show _ = g8 (a ⟨t, ht⟩)
  rw [← Vec.at_lt a ht, as16_byte hn a, Vec.at_lt _ ht2]

theorem as16_all {P : BitVec 8 → Prop} (hn : n % 2 = 0) {a : Vec 8 n} (ha : ∀ i, P (a i)) (i : Fin (n / 2)) {b : Nat} (hb : b < 2) :
    P ((as16 a i).extractLsb' (b * 8) 8) := by
  have hi := i.isLt
  have hlt : i.val * 2 + b < n := by omega
  have := ha ⟨i.val * 2 + b, hlt⟩
  rwa [← Vec.at_lt a hlt, as16_byte hn, show (i.val * 2 + b) / 2 = i.val by omega, show (i.val * 2 + b) % 2 = b by omega,
    Vec.at_fin] at this

section
variable {c : Cfg} (h : c.Ok) (hw : w = 8 ∨ w = 16) (hn : n = Reg.r128.lanes w)
include h hw hn

theorem divShl1_eq (a : Vec w n) (ha : ∀ i, (a i).toNat < 2 ^ (w - 1)) : divShl1 c a = some (fun i => a i <<< 1) := by
  unfold divShl1
  rcases hw with e | e <;> subst e
  · have hn2 : n % 2 = 0 := by subst hn; rfl
    have hn3 : n / 2 % 2 = 0 := by subst hn; rfl
    refine via16_of hn2 (g := (· <<< 1)) (g8 := (· <<< 1)) a (shift_l_imm_eq h iw16 (r := .r128) rfl hn3 _ (by decide)) fun i b hb => ?_
    exact byteL (as16_all (P := fun x => x.getLsbD 7 = false) hn2 (fun i => by
      have := ha i
      rw [BitVec.getLsbD, Nat.testBit_lt_two_pow this]) i (by decide)) hb
  · exact shift_l_imm_eq h iw16 (r := .r128) rfl (by subst hn; rfl) a (by decide)

theorem divShr_eq {k : Nat} (hk : k < w) (a : Vec w n) (ha : ∀ i j, j < k → (a i).getLsbD j = false) :
    divShr c k a = some (fun i => a i >>> k) := by
  unfold divShr
  rcases hw with e | e <;> subst e
  · have hn2 : n % 2 = 0 := by subst hn; rfl
    have hn3 : n / 2 % 2 = 0 := by subst hn; rfl
    refine via16_of (f := fun x => i_shift_r c false .r128 x k) hn2 (g := (· >>> k)) (g8 := (· >>> k)) a (i_shift_r_eq h false iw16 (r := .r128) rfl hn3 (as16 a) (k := k) (by omega)) fun i b hb => ?_
    exact byteR hk (as16_all (P := fun x => ∀ j, j < k → x.getLsbD j = false) hn2 (fun i => ha i) i (by decide)) hb
  · exact i_shift_r_eq h false iw16 (r := .r128) rfl (by subst hn; rfl) a hk

theorem divShr1_eq (a : Vec w n) (ha : ∀ i, (a i).getLsbD 0 = false) : divShr1 c a = some (fun i => a i >>> 1) := by
  unfold divShr1
  rcases hw with e | e <;> subst e
  · have hn2 : n % 2 = 0 := by subst hn; rfl
    have hn3 : n / 2 % 2 = 0 := by subst hn; rfl
    refine via16_of hn2 (g := (· >>> 1)) (g8 := (· >>> 1)) a (shift_r_imm_eq h false iw16 (r := .r128) rfl hn3 _ (by decide)) fun i b hb => ?_
    exact byteR (by decide) (as16_all (P := fun x => ∀ j, j < 1 → x.getLsbD j = false) hn2 (fun i j hj => by
      rw [show j = 0 by omega]; exact ha i) i (by decide)) hb
  · exact shift_r_imm_eq h false iw16 (r := .r128) rfl (by subst hn; rfl) a (by decide)

/-- The final shift of the mask (by one when only bit 0 is set) does not matter, but it has some value. -/
theorem divShr1_some (a : Vec w n) : ∃ x, divShr1 c a = some x := by
  unfold divShr1
  rcases hw with e | e <;> subst e
  · have hn3 : n / 2 % 2 = 0 := by subst hn; rfl
    exact ⟨_, congrArg (Option.map _) (shift_r_imm_eq h false iw16 (r := .r128) rfl hn3 (as16 a) (k := 1) (by decide))⟩
  · exact ⟨_, shift_r_imm_eq h false iw16 (r := .r128) rfl (by subst hn; rfl) a (by decide)⟩

theorem divLoop_eq (num den : Vec w n) {P : Nat} (hP : P ≤ w) : ∀ i, i ≤ P → ∀ bm : Vec w n,
    (∀ t j, i = j + 1 → bm t = BitVec.twoPow w j) →
    divLoop c num den i (fun t => BitVec.ofNat w ((num t).toNat % 2 ^ P / 2 ^ i % (den t).toNat))
      (fun t => BitVec.ofNat w (qPart P ((num t).toNat % 2 ^ P) (den t).toNat i)) bm =
    some (fun t => BitVec.ofNat w (qPart P ((num t).toNat % 2 ^ P) (den t).toNat 0)) := by
  have hw' : IsW w := by rcases hw with e | e <;> subst e; exacts [isW8, iw16]
  have h64 : w ≠ 64 := by rcases hw with e | e <;> omega
  intro i
  induction i with
  | zero => intro _ bm _; rfl
  | succ i ih =>
    intro hi bm hbm
    have hbm' : bm = fun _ => BitVec.twoPow w i := funext fun t => hbm t i rfl
    subst hbm'
    have hPw : 2 ^ P ≤ 2 ^ w := Nat.pow_le_pow_right (by decide) hP
    have hlt : ∀ t, (num t).toNat % 2 ^ P / 2 ^ (i + 1) % (den t).toNat < 2 ^ (w - 1) := fun t => by
      have h1 := Nat.mod_le ((num t).toNat % 2 ^ P / 2 ^ (i + 1)) (den t).toNat
      have h2 : (num t).toNat % 2 ^ P / 2 ^ (i + 1) ≤ (num t).toNat % 2 ^ P / 2 ^ 1 :=
        Nat.div_le_div_left (Nat.pow_le_pow_right (by decide) (by omega)) (by decide)
      have h3 := Nat.mod_lt (num t).toNat (Nat.pow_pos (n := P) (show 0 < 2 by decide))
      have h4 : 2 ^ w = 2 * 2 ^ (w - 1) := by rw [← Nat.pow_succ']; congr 1; omega
      omega
    have hw1 : 2 ^ (w - 1) ≤ 2 ^ w := Nat.pow_le_pow_right (by decide) (by omega)
    unfold divLoop
    refine (bind_of (divShl1_eq h hw hn _ (fun t => ?_)) _).trans ?_
    · rw [BitVec.toNat_ofNat, Nat.mod_eq_of_lt (by have := hlt t; omega)]; exact hlt t
    refine (bind_of (i_bit_and_eq h (k := .int) hw' (r := .r128) rfl _ _) _).trans ?_
    refine (bind_of (divShr_eq h hw hn (k := i) (by omega) _ (fun t j hj => ?_)) _).trans ?_
    · rw [BitVec.getLsbD_and, BitVec.getLsbD_twoPow]; simp; intro; omega
    refine (bind_of (i_bit_or_eq h (k := .int) hw' (r := .r128) rfl _ _) _).trans ?_
    refine (bind_of (i_cmp_lt_eq h hw' (r := .r128) rfl false (fun g => absurd g h64) (fun g => absurd g h64)
      (fun g => absurd g h64) _ _) _).trans ?_
    refine (bind_of (i_bit_andnot_eq h (k := .int) hw' (r := .r128) rfl _ _) _).trans ?_
    refine (bind_of (i_bit_andnot_eq h (k := .int) hw' (r := .r128) rfl _ _) _).trans ?_
    refine (bind_of (i_isub_eq h hw' (r := .r128) rfl _ _) _).trans ?_
    refine (bind_of (i_bit_or_eq h (k := .int) hw' (r := .r128) rfl _ _) _).trans ?_
    obtain ⟨x, hx, hxi⟩ : ∃ x : Vec w n, divShr1 c (fun _ => BitVec.twoPow w i) = some x ∧
        ∀ t j, i = j + 1 → x t = BitVec.twoPow w j := by
      by_cases g : i = 0
      · obtain ⟨x, hx⟩ := divShr1_some h hw hn (fun _ => BitVec.twoPow w i)
        exact ⟨x, hx, fun t j hj => by omega⟩
      · refine ⟨_, divShr1_eq h hw hn _ (fun t => ?_), fun t j hj => ?_⟩
        · rw [BitVec.getLsbD_twoPow]; simp; omega
        · subst hj
          apply BitVec.eq_of_getLsbD_eq
          intro q hq
          rw [BitVec.getLsbD_ushiftRight, BitVec.getLsbD_twoPow, BitVec.getLsbD_twoPow]
          simp only [show j + 1 < w by omega, show j < w by omega, decide_true, Bool.true_and]
          rw [decide_eq_decide]; omega
    refine (bind_of hx _).trans ?_
    have key := fun t => div_lane hP (show i < P by omega) (num t) (den t)
    rw [Mask.unmask_of]
    have e1 := funext fun t => (key t).1
    have e2 := funext fun t => (key t).2
    rw [← ih (by omega) x hxi, ← e1, ← e2]

theorem div_p_simd (h0 : c.null = false) (num den : Vec w n) {P : Nat} (hP1 : 1 ≤ P) (hP : P ≤ w) :
    div_p c P num den = some (fun t => BitVec.ofNat w (qPart P ((num t).toNat % 2 ^ P) (den t).toNat 0)) := by
  unfold div_p
  rw [if_neg (by rw [h0]; decide), if_pos ⟨hP1, hP⟩, ← divLoop_eq h hw hn num den hP P (Nat.le_refl _)
    (Vec.splat (BitVec.twoPow w (P - 1))) (fun t j hj => by subst hj; rfl)]
  congr 1
  · funext t
    rw [Nat.div_eq_of_lt (Nat.mod_lt _ (Nat.pow_pos (by decide))), Nat.zero_mod]; rfl
  · funext t
    unfold qPart
    rw [Nat.div_eq_of_lt (Nat.mod_lt _ (Nat.pow_pos (by decide)))]
    simp [Vec.splat]

end

/-! ### portable -/

theorem mask_val {P : Nat} (hP : P < 64) : (C.shl (C.bnot ⟨C.uint64, 0⟩) ⟨C.uint32, P⟩).map (fun m => C.cast C.uint64 (C.bnot m)) =
    some ⟨C.uint64, ((2 ^ P - 1 : Nat) : Int)⟩ := by
  have : ∀ P : Fin 64, (C.shl (C.bnot ⟨C.uint64, 0⟩) ⟨C.uint32, (P.val : Int)⟩).map (fun m => C.cast C.uint64 (C.bnot m)) =
    some ⟨C.uint64, ((2 ^ P.val - 1 : Nat) : Int)⟩ := by decide +kernel
  exact this ⟨P, hP⟩

theorem divp_lane (hw : w = 8 ∨ w = 16) {P : Nat} (hP : P ≤ w) (x y : BitVec w) :
    ((C.div (C.band (C.lane false x) ⟨C.uint64, ((2 ^ P - 1 : Nat) : Int)⟩) (C.band (C.lane false y) ⟨C.uint64, ((2 ^ P - 1 : Nat) : Int)⟩)).map
      fun q => C.toLane w (C.band (C.lane false (C.toLane w q)) ⟨C.uint64, ((2 ^ P - 1 : Nat) : Int)⟩)) =
    if y.toNat % 2 ^ P = 0 then none else some (BitVec.ofNat w (x.toNat % 2 ^ P / (y.toNat % 2 ^ P))) := by
  have hw' : IsW w := by rcases hw with e | e <;> subst e; exacts [isW8, iw16]
  have hw64 : 2 ^ w < 2 ^ 64 := Nat.pow_lt_pow_right (by decide) (by omega)
  have hPw : 2 ^ P ≤ 2 ^ w := Nat.pow_le_pow_right (by decide) hP
  have hpos : 0 < 2 ^ P := Nat.pow_pos (by decide)
  have hu : C.usual ⟨false, w⟩ C.uint64 = C.promTy ⟨false, 64⟩ := by rcases hw with e | e <;> subst e <;> decide
  have hb : ∀ z : Nat, z < 2 ^ w → C.band ⟨⟨false, w⟩, (z : Int)⟩ ⟨C.uint64, ((2 ^ P - 1 : Nat) : Int)⟩ =
      ⟨C.promTy ⟨false, 64⟩, ((z % 2 ^ P : Nat) : Int)⟩ := fun z hz => by
    rw [nband iw64 hu (by omega) (by omega), Nat.and_two_pow_sub_one_eq_mod]
  have hl : ∀ z : BitVec w, C.lane false z = ⟨⟨false, w⟩, (z.toNat : Int)⟩ := fun z => rfl
  rw [hl, hl, hb _ x.isLt, hb _ y.isLt]
  have hx := Nat.mod_lt x.toNat hpos
  have hy := Nat.mod_lt y.toNat hpos
  have ht : C.usual (C.promTy ⟨false, 64⟩) (C.promTy ⟨false, 64⟩) = C.uint64 := by decide
  have hwr : ∀ z : Nat, z < 2 ^ 64 → C.wrap C.uint64 (z : Int) = z := fun z hz => C.wrap_u64 (by omega) (by omega)
  unfold C.div
  dsimp only
  rw [ht, hwr _ (by omega), hwr _ (by omega)]
  by_cases g : y.toNat % 2 ^ P = 0
  · simp [g]
  · rw [if_neg (by exact_mod_cast g), if_neg g]
    have hdiv : x.toNat % 2 ^ P / (y.toNat % 2 ^ P) ≤ x.toNat % 2 ^ P := Nat.div_le_self _ _
    have e : Int.tdiv ((x.toNat % 2 ^ P : Nat) : Int) ((y.toNat % 2 ^ P : Nat) : Int) = ((x.toNat % 2 ^ P / (y.toNat % 2 ^ P) : Nat) : Int) :=
      (Int.ofNat_tdiv _ _).symm
    rw [e]
    generalize x.toNat % 2 ^ P / (y.toNat % 2 ^ P) = q at *
    have ha : C.arith C.uint64 (q : Int) = some ⟨C.uint64, (q : Int)⟩ := by
      unfold C.arith
      rw [hwr _ (by omega)]; simp [C.uint64]
    rw [ha, Option.map_some]
    have e2 : (C.toLane w ⟨C.uint64, (q : Int)⟩).toNat = q := by
      rw [C.toLane_mk, BitVec.ofInt_natCast, BitVec.toNat_ofNat, Nat.mod_eq_of_lt (by omega)]
    rw [hl, e2, hb _ (by omega), C.toLane_mk, BitVec.ofInt_natCast, Nat.mod_eq_of_lt (by omega)]

theorem Null.div_p_eq (hw : w = 8 ∨ w = 16) {P : Nat} (hP : P ≤ w) (num den : Vec w n) (hd : ∀ i, (den i).toNat % 2 ^ P ≠ 0) :
    Null.div_p P false num den = some (fun i => BitVec.ofNat w ((num i).toNat % 2 ^ P / ((den i).toNat % 2 ^ P))) := by
  have hm := mask_val (P := P) (by omega)
  unfold Null.div_p
  obtain ⟨m, hm1, hm2⟩ := Option.map_eq_some_iff.1 hm
  refine (bind_of hm1 _).trans ?_
  dsimp only
  rw [hm2]
  refine lanesM_eq_some.2 fun i => ?_
  rw [divp_lane hw hP, if_neg (hd i)]

/-! ## C11 -/

section
variable {c : Cfg} (h : c.Ok) (hw : w = 8 ∨ w = 16) (hn : n = Reg.r128.lanes w) {P : Nat} (hP1 : 1 ≤ P) (hP : P ≤ w)
include h hw hn hP1 hP

/-- C11 as documented, "only P least significant bits of both numerator and denumerator are considered", holds for every
instruction set as long as the denominators have no bits above the `P` lowest. Missing: denominators with higher bits set, for
which it is false (`C11_den_high_simd`). -/
theorem C11_div_p_partial (num den : Vec w n) (hd0 : ∀ i, den i ≠ 0) (hd : ∀ i, (den i).toNat < 2 ^ P) :
    ∃ res, div_p c P num den = some res ∧ ∀ i, (res i).toNat = (num i).toNat % 2 ^ P / ((den i).toNat % 2 ^ P) := by
  have hpos : 0 < 2 ^ P := Nat.pow_pos (by decide)
  have hPw : 2 ^ P ≤ 2 ^ w := Nat.pow_le_pow_right (by decide) hP
  have hd0' : ∀ i, (den i).toNat ≠ 0 := fun i e => hd0 i (BitVec.eq_of_toNat_eq e)
  have hlt : ∀ i, (num i).toNat % 2 ^ P / ((den i).toNat % 2 ^ P) < 2 ^ w := fun i => by
    have h1 := Nat.mod_lt (num i).toNat hpos
    have h2 := Nat.div_le_self ((num i).toNat % 2 ^ P) ((den i).toNat % 2 ^ P)
    omega
  cases h0 : c.null
  · refine ⟨_, div_p_simd h hw hn h0 num den hP1 hP, fun i => ?_⟩
    rw [BitVec.toNat_ofNat, qPart, if_neg (hd0' i), Nat.pow_zero, Nat.div_one, Nat.mul_one, Nat.mod_eq_of_lt (a := (den i).toNat) (hd i),
      Nat.mod_eq_of_lt]
    have := hlt i
    rwa [Nat.mod_eq_of_lt (a := (den i).toNat) (hd i)] at this
  · refine ⟨_, (if_pos h0).trans (Null.div_p_eq hw hP num den fun i => ?_), fun i => ?_⟩
    · rw [Nat.mod_eq_of_lt (hd i)]; exact hd0' i
    · rw [BitVec.toNat_ofNat, Nat.mod_eq_of_lt (hlt i)]

/-- C11: with full precision the operation is unsigned division. -/
theorem C11_full (hPw : P = w) (num den : Vec w n) (hd0 : ∀ i, den i ≠ 0) :
    ∃ res, div_p c P num den = some res ∧ ∀ i, (res i).toNat = (num i).toNat / (den i).toNat := by
  subst hPw
  obtain ⟨res, e, hres⟩ := C11_div_p_partial h hw hn hP1 hP num den hd0 (fun i => (den i).isLt)
  refine ⟨res, e, fun i => ?_⟩
  rw [hres i, Nat.mod_eq_of_lt (num i).isLt, Nat.mod_eq_of_lt (den i).isLt]

/-- C11: what the vectorised loop computes for any denominator: the numerator is reduced to `P` bits, the denominator is not;
a zero denominator gives the largest `P`-bit number. -/
theorem C11_simd (h0 : c.null = false) (num den : Vec w n) :
    ∃ res, div_p c P num den = some res ∧
      ∀ i, (res i).toNat = if den i = 0 then 2 ^ P - 1 else (num i).toNat % 2 ^ P / (den i).toNat := by
  have hpos : 0 < 2 ^ P := Nat.pow_pos (by decide)
  have hPw : 2 ^ P ≤ 2 ^ w := Nat.pow_le_pow_right (by decide) hP
  refine ⟨_, div_p_simd h hw hn h0 num den hP1 hP, fun i => ?_⟩
  have h1 := Nat.mod_lt (num i).toNat hpos
  have h2 := Nat.div_le_self ((num i).toNat % 2 ^ P) (den i).toNat
  have e : (den i).toNat = 0 ↔ den i = 0 := ⟨fun e => BitVec.eq_of_toNat_eq e, fun e => by rw [e]; rfl⟩
  rw [BitVec.toNat_ofNat, qPart, Nat.pow_zero, Nat.div_one, Nat.mul_one, Nat.mod_eq_of_lt]
  · simp only [e]
  · split_ifs <;> omega

/-- C11: a denominator with bits above the `P` lowest gives 0 on every instruction set but the portable one, instead of the
quotient of the `P` lowest bits. -/
theorem C11_den_high_simd (h0 : c.null = false) (num den : Vec w n) (i : Fin n) (hd : 2 ^ P ≤ (den i).toNat) :
    ∃ res, div_p c P num den = some res ∧ (res i).toNat = 0 := by
  obtain ⟨res, e, hres⟩ := C11_simd h hw hn hP1 hP h0 num den
  have hpos : 0 < 2 ^ P := Nat.pow_pos (by decide)
  refine ⟨res, e, ?_⟩
  rw [hres i, if_neg (fun e => by rw [e] at hd; simp at hd), Nat.div_eq_of_lt]
  exact (Nat.mod_lt _ hpos).trans_le hd

end

/-- C11: the portable code reduces both operands to `P` bits. -/
theorem C11_portable {c : Cfg} (h0 : c.null = true) (hw : w = 8 ∨ w = 16) {P : Nat} (hP : P ≤ w) (num den : Vec w n)
    (hd : ∀ i, (den i).toNat % 2 ^ P ≠ 0) :
    ∃ res, div_p c P num den = some res ∧ ∀ i, (res i).toNat = (num i).toNat % 2 ^ P / ((den i).toNat % 2 ^ P) := by
  have hpos : 0 < 2 ^ P := Nat.pow_pos (by decide)
  have hPw : 2 ^ P ≤ 2 ^ w := Nat.pow_le_pow_right (by decide) hP
  refine ⟨_, (if_pos h0).trans (Null.div_p_eq hw hP num den hd), fun i => ?_⟩
  have h1 := Nat.mod_lt (num i).toNat hpos
  have h2 := Nat.div_le_self ((num i).toNat % 2 ^ P) ((den i).toNat % 2 ^ P)
  rw [BitVec.toNat_ofNat, Nat.mod_eq_of_lt (by omega)]

/-- C11: the portable code divides by zero (undefined behaviour) when the `P` low bits of a denominator are zero. -/
theorem C11_portable_zero {c : Cfg} (h0 : c.null = true) (hw : w = 8 ∨ w = 16) {P : Nat} (hP : P ≤ w) (num den : Vec w n) (i : Fin n)
    (hd : (den i).toNat % 2 ^ P = 0) : div_p c P num den = none := by
  refine (if_pos h0).trans ?_
  have hm := mask_val (P := P) (by omega)
  unfold Null.div_p
  obtain ⟨m, hm1, hm2⟩ := Option.map_eq_some_iff.1 hm
  refine (bind_of hm1 _).trans ?_
  dsimp only
  rw [hm2, Option.eq_none_iff_forall_ne_some]
  intro x hx
  have := lanesM_eq_some.1 hx i
  rw [divp_lane hw hP, if_pos hd] at this
  cases this

/-- C11: the portable and the vectorised versions disagree: 5 divided by 17 with 4 bits of precision is 5 or 0. -/
theorem C11_disagree : ∃ p s, div_p Cfg.portable 4 (Vec.splat 5 : Vec 8 16) (Vec.splat 17) = some p ∧
    div_p Cfg.sse2Only 4 (Vec.splat 5 : Vec 8 16) (Vec.splat 17) = some s ∧ p 0 = 5 ∧ s 0 = 0 := by
  obtain ⟨p, hp, hp2⟩ := C11_portable (c := Cfg.portable) rfl (Or.inl rfl) (P := 4) (by decide) (Vec.splat 5 : Vec 8 16) (Vec.splat 17)
    (by decide)
  obtain ⟨s, hs, hs2⟩ := C11_den_high_simd Cfg.sse2Only_ok (n := 16) (Or.inl rfl) rfl (P := 4) (by decide) (by decide) rfl (Vec.splat 5) (Vec.splat 17) 0
    (by decide)
  exact ⟨p, s, hp, hs, BitVec.eq_of_toNat_eq ((hp2 0).trans (by decide)), BitVec.eq_of_toNat_eq hs2⟩

/-- Non-vacuity. -/
example (num : Vec 8 16) : ∃ res, div_p Cfg.sse2Only 6 num (fun i => BitVec.ofNat 8 (i.val + 1)) = some res ∧
    ∀ i, (res i).toNat = (num i).toNat % 2 ^ 6 / ((BitVec.ofNat 8 (i.val + 1)).toNat % 2 ^ 6) :=
  C11_div_p_partial Cfg.sse2Only_ok (Or.inl rfl) rfl (by decide) (by decide) num _ (by decide) (by decide)
example (num : Vec 16 8) : ∃ res, div_p Cfg.neonA64 16 num (fun i => BitVec.ofNat 16 (300 * i.val + 1)) = some res ∧
    ∀ i, (res i).toNat = (num i).toNat / (BitVec.ofNat 16 (300 * i.val + 1)).toNat :=
  C11_full Cfg.neonA64_ok (Or.inr rfl) rfl (by decide) (by decide) rfl num _ (by decide)

end Simdpp
