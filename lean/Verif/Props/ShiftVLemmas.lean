import Verif.Model.ShiftV
import Verif.Props.PopcntPub

/-! Lemmas about shifts by a vector of counts. -/

namespace Simdpp
open Spec Sh

variable {w v n : Nat}

theorem m00ff (i : Nat) : (0x00ff : BitVec 16).getLsbD i = decide (i < 8) := by
  by_cases h : i < 16
  · revert i; decide
  · rw [BitVec.getLsbD_of_ge _ _ (by omega)]; simp; omega
theorem mff00 (i : Nat) : (0xff00 : BitVec 16).getLsbD i = (decide (8 ≤ i) && decide (i < 16)) := by
  by_cases h : i < 16
  · revert i; decide
  · rw [BitVec.getLsbD_of_ge _ _ (by omega)]; simp; omega

/-- Bitwise reasoning about two bytes in a 16-bit lane. -/
macro "bits16" : tactic => `(tactic| (
  apply BitVec.eq_of_getLsbD_eq
  intro j hj
  simp only [BitVec.getLsbD_extractLsb', BitVec.getLsbD_or, BitVec.getLsbD_and, BitVec.getLsbD_not, BitVec.getLsbD_shiftLeft,
    BitVec.getLsbD_ushiftRight, BitVec.getLsbD_sshiftRight, BitVec.msb_eq_getLsbD_last]
  grind [m00ff, mff00]))

section lanes
variable (A : BitVec 16) {k0 k1 : Nat} (h0 : k0 < 8) (h1 : k1 < 8)
include h0 h1

theorem l8_v16 :
    (((A <<< k0) &&& ~~~0xff00) ||| ((A &&& 0xff00) <<< k1)).extractLsb' (0 * 8) 8 = A.extractLsb' (0 * 8) 8 <<< k0 ∧
    (((A <<< k0) &&& ~~~0xff00) ||| ((A &&& 0xff00) <<< k1)).extractLsb' (1 * 8) 8 = A.extractLsb' (1 * 8) 8 <<< k1 := by
  constructor <;> bits16

theorem l8_mul :
    (((A <<< 8 <<< k0) >>> 8) ||| ((A &&& ~~~0x00ff) <<< k1)).extractLsb' (0 * 8) 8 = A.extractLsb' (0 * 8) 8 <<< k0 ∧
    (((A <<< 8 <<< k0) >>> 8) ||| ((A &&& ~~~0x00ff) <<< k1)).extractLsb' (1 * 8) 8 = A.extractLsb' (1 * 8) 8 <<< k1 := by
  constructor <;> bits16

theorem u8_v16 :
    (((A &&& 0x00ff) >>> k0) ||| ((A >>> k1) &&& ~~~0x00ff)).extractLsb' (0 * 8) 8 = A.extractLsb' (0 * 8) 8 >>> k0 ∧
    (((A &&& 0x00ff) >>> k0) ||| ((A >>> k1) &&& ~~~0x00ff)).extractLsb' (1 * 8) 8 = A.extractLsb' (1 * 8) 8 >>> k1 := by
  constructor <;> bits16

theorem u8_mul :
    (((A <<< 8) >>> (8 + k0)) ||| (((A &&& ~~~0x00ff) >>> (8 + k1)) <<< 8)).extractLsb' (0 * 8) 8 = A.extractLsb' (0 * 8) 8 >>> k0 ∧
    (((A <<< 8) >>> (8 + k0)) ||| (((A &&& ~~~0x00ff) >>> (8 + k1)) <<< 8)).extractLsb' (1 * 8) 8 = A.extractLsb' (1 * 8) 8 >>> k1 := by
  constructor <;> bits16

theorem i8_v16 :
    ((((A <<< 8).sshiftRight k0) >>> 8) ||| (A.sshiftRight k1 &&& ~~~0x00ff)).extractLsb' (0 * 8) 8 =
      (A.extractLsb' (0 * 8) 8).sshiftRight k0 ∧
    ((((A <<< 8).sshiftRight k0) >>> 8) ||| (A.sshiftRight k1 &&& ~~~0x00ff)).extractLsb' (1 * 8) 8 =
      (A.extractLsb' (1 * 8) 8).sshiftRight k1 := by
  constructor <;> bits16

theorem i8_mul :
    (((A <<< 8).sshiftRight (8 + k0) &&& 0x00ff) ||| ((A &&& ~~~0x00ff).sshiftRight (8 + k1) <<< 8)).extractLsb' (0 * 8) 8 =
      (A.extractLsb' (0 * 8) 8).sshiftRight k0 ∧
    (((A <<< 8).sshiftRight (8 + k0) &&& 0x00ff) ||| ((A &&& ~~~0x00ff).sshiftRight (8 + k1) <<< 8)).extractLsb' (1 * 8) 8 =
      (A.extractLsb' (1 * 8) 8).sshiftRight k1 := by
  constructor <;> bits16

end lanes

theorem lo_byte (C : BitVec 16) : (C &&& 0x00ff).toNat = (C.extractLsb' (0 * 8) 8).toNat ∧
    (C &&& ~~~0xff00).toNat = (C.extractLsb' (0 * 8) 8).toNat ∧ (C >>> 8).toNat = (C.extractLsb' (1 * 8) 8).toNat := by
  have e1 : C &&& 0x00ff = (C.extractLsb' (0 * 8) 8).setWidth 16 := by
    apply BitVec.eq_of_getLsbD_eq; intro j hj
    simp only [BitVec.getLsbD_setWidth, BitVec.getLsbD_extractLsb', BitVec.getLsbD_and]; grind [m00ff]
  have e2 : C &&& ~~~0xff00 = (C.extractLsb' (0 * 8) 8).setWidth 16 := by
    apply BitVec.eq_of_getLsbD_eq; intro j hj
    simp only [BitVec.getLsbD_setWidth, BitVec.getLsbD_extractLsb', BitVec.getLsbD_and, BitVec.getLsbD_not]; grind [mff00]
  have e3 : C >>> 8 = (C.extractLsb' (1 * 8) 8).setWidth 16 := by
    apply BitVec.eq_of_getLsbD_eq; intro j hj
    simp only [BitVec.getLsbD_setWidth, BitVec.getLsbD_extractLsb', BitVec.getLsbD_ushiftRight]; grind
  have b : ∀ x : BitVec 8, (x.setWidth 16).toNat = x.toNat := fun x => by
    rw [BitVec.toNat_setWidth, Nat.mod_eq_of_lt]; have := x.isLt; omega
  exact ⟨by rw [e1, b], by rw [e2, b], by rw [e3, b]⟩

/-- Low and high byte of a lane whose bytes are known. -/
theorem bytes_lane {M : BitVec 16} {p q : Nat} (hp : p < 8) (hq : q < 8) (e0 : M.extractLsb' (0 * 8) 8 = BitVec.twoPow 8 p)
    (e1 : M.extractLsb' (1 * 8) 8 = BitVec.twoPow 8 q) : M &&& 0x00ff = BitVec.twoPow 16 p ∧ M >>> 8 = BitVec.twoPow 16 q := by
  have hl := lo_byte M
  have t8 : ∀ p, p < 8 → (BitVec.twoPow 8 p).toNat = 2 ^ p := fun p hp => by
    rw [BitVec.toNat_twoPow, Nat.mod_eq_of_lt (Nat.pow_lt_pow_right (by decide) hp)]
  have t16 : ∀ p, p < 8 → (BitVec.twoPow 16 p).toNat = 2 ^ p := fun p hp => by
    rw [BitVec.toNat_twoPow, Nat.mod_eq_of_lt (Nat.pow_lt_pow_right (by decide) (by omega))]
  constructor <;> apply BitVec.eq_of_toNat_eq
  · rw [hl.1, e0, t8 p hp, t16 p hp]
  · rw [hl.2.2, e1, t8 q hq, t16 q hq]

theorem twoPow_shl1 {p : Nat} : BitVec.twoPow 16 p <<< 1 = BitVec.twoPow 16 (p + 1) := by
  unfold BitVec.twoPow
  rw [BitVec.shiftLeft_add]

theorem mulhi_pow (sg : Bool) (x : BitVec 16) {j : Nat} (hj : j < 16) (hs : sg = true → j < 15) :
    (Hw.mulLane sg (2 * 16) x (BitVec.twoPow 16 j)).extractLsb' 16 16 = bshr sg x (16 - j) := by
  have hv : val sg (BitVec.twoPow 16 j) = 2 ^ j := by
    have ht : (BitVec.twoPow 16 j).toNat = 2 ^ j := by
      rw [BitVec.toNat_twoPow, Nat.mod_eq_of_lt (Nat.pow_lt_pow_right (by decide) hj)]
    cases sg
    · simp only [val, Bool.false_eq_true, if_false, ht]; push_cast; rfl
    · have : 2 ^ j ≤ 2 ^ 14 := Nat.pow_le_pow_right (by decide) (by have := hs rfl; omega)
      simp only [val, if_true]
      rw [BitVec.toInt_eq_toNat_of_lt (by rw [ht]; omega), ht]; push_cast; rfl
  rw [high_lane sg _ (by decide), val_mulLane sg (by decide) (by decide), hv, shr_spec]
  congr 1
  have e : (2 : Int) ^ 16 = 2 ^ (16 - j) * 2 ^ j := by rw [← pow_add]; congr 1; omega
  rw [e, Int.mul_ediv_mul_of_pos_left _ _ (by positivity)]

/-! ### bytes of vectors -/

theorem as16_byte (hn : n % 2 = 0) (a : Vec 8 n) (t : Nat) : a.at_ t = ((as16 a).at_ (t / 2)).extractLsb' (t % 2 * 8) 8 := by
  unfold as16
  rw [← recast_at (by decide) (q := 2) (by decide) rfl (m := n) (by omega), Vec.recast_recast _ (by decide) (by omega)]

theorem of16_eq (hn : n % 2 = 0) {R : Vec 16 (n / 2)} {a count : Vec 8 n} {f : BitVec 8 → Nat → BitVec 8}
    (hc : ∀ i, (count i).toNat < 8)
    (h : ∀ i : Fin (n / 2), (((as16 count) i).extractLsb' (0 * 8) 8).toNat < 8 → (((as16 count) i).extractLsb' (1 * 8) 8).toNat < 8 →
      (R i).extractLsb' (0 * 8) 8 = f (((as16 a) i).extractLsb' (0 * 8) 8) (((as16 count) i).extractLsb' (0 * 8) 8).toNat ∧
      (R i).extractLsb' (1 * 8) 8 = f (((as16 a) i).extractLsb' (1 * 8) 8) (((as16 count) i).extractLsb' (1 * 8) 8).toNat) :
    R.recast 8 n = fun i => f (a i) (count i).toNat := by
  refine ext_at fun t ht => ?_
  have ht2 : t / 2 < n / 2 := by omega
  have hb : ∀ b, b < 2 → (((as16 count) ⟨t / 2, ht2⟩).extractLsb' (b * 8) 8).toNat < 8 := fun b hb => by
    have hlt : t / 2 * 2 + b < n := by omega
    have := hc ⟨t / 2 * 2 + b, hlt⟩
    rw [← Vec.at_lt count hlt, as16_byte hn, show (t / 2 * 2 + b) / 2 = t / 2 by omega, show (t / 2 * 2 + b) % 2 = b by omega,
      Vec.at_lt _ ht2] at this
    exact this
  have key := h ⟨t / 2, ht2⟩ (hb 0 (by decide)) (hb 1 (by decide))
  rw [recast_at (by decide) (q := 2) (by decide) rfl (by omega), Vec.at_lt _ ht2, Vec.at_lt _ ht]
  show _ = f (a ⟨t, ht⟩) (count ⟨t, ht⟩).toNat
  rw [← Vec.at_lt a ht, ← Vec.at_lt count ht, as16_byte hn a, as16_byte hn count, Vec.at_lt _ ht2, Vec.at_lt _ ht2]
  rcases Nat.mod_two_eq_zero_or_one t with g | g <;> rw [g]
  · exact key.1
  · exact key.2

section
variable {c : Cfg} (h : c.Ok)
include h

/-- A table lookup. -/
theorem permTable {r : Reg} (hr : c.hasInt 8 r = true) (hs : c.sse2 = true → c.ssse3 = true) (hn : n = r.lanes 8) {l : List Nat}
    (hl : l.length = 8 ∨ l.length = 16) (m : Vec 8 n) (hm : ∀ i, (m i).toNat < 16) :
    i_permute_bytes16 c r (cyc l) m = some (fun i => BitVec.ofNat 8 (l.getD ((m i).toNat % l.length) 0)) := by
  rw [i_permute_bytes16_eq h hr hs hn _ _ hm]
  refine congrArg some (funext fun i => ?_)
  have h1 := hm i
  have hi := i.isLt
  have hn16 : n % 16 = 0 := by subst hn; cases r <;> decide
  unfold selB
  rw [if_neg (by omega), if_pos h1, Vec.at_lt _ (by omega)]
  unfold cyc
  dsimp only
  congr 2
  rcases hl with e | e <;> rw [e] <;> omega

end

end Simdpp
