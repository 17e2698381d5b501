import Verif.Props.BigEndLemmas
import Verif.Props.ExtractBits
import Verif.Props.Conv
import Verif.Spec.Shuffle

/-!
# C65: big-endian AltiVec and VSX builds

Which functions give the lanes documented for every target, and what the others give instead.
-/

namespace Simdpp

open Spec (IsW)
open Sh

namespace BE

variable {w v n m : Nat}

theorem isW_q (hw : IsW w) : 0 < w / 8 ∧ w = 8 * (w / 8) ∧ 16 = w / 8 * (128 / w) ∧ 0 < 128 / w := by
  rcases hw with rfl | rfl | rfl | rfl <;> decide

theorem at_zero (k : Nat) : (Vec.splat 0 : Vec w n).at_ k = 0 := by
  unfold Vec.at_; split <;> rfl

theorem recast_zero : recast v m (Vec.splat 0 : Vec w n) = Vec.splat 0 := by
  funext j
  apply BitVec.eq_of_getLsbD_eq; intro k hk
  rw [recast_get _ _ hk]
  unfold bit
  rw [at_zero]
  show (0#w).getLsbD _ = (0#v).getLsbD _
  simp

/-! ## Moves -/

/-- Sliding `a:b` by `s` lanes, through bytes. -/
theorem slide_eq (hw : IsW w) {s : Nat} (hs : s < 128 / w) (a b : Vec w (128 / w)) :
    onBytes2 (fun x y => sldBi (s * (w / 8)) x y) a b = some (fun j => pick a b (j.val + s)) := by
  obtain ⟨hq, hw8, hn, hL⟩ := isW_q hw
  have h16 : s * (w / 8) < 16 := by
    calc s * (w / 8) < 128 / w * (w / 8) := Nat.mul_lt_mul_of_pos_right hs hq
      _ = 16 := by rw [Nat.mul_comm]; exact hn.symm
  unfold onBytes2 sldBi sld
  dsimp only
  rw [if_pos h16, Option.map_some]
  congr 1
  refine recast_pick (q := w / 8) hq hw8 hn a b (fun j => j + s) (fun j hj => by omega) (fun i hi => ?_)
  rw [Vec.at_lt _ hi]
  show (if i + s * (w / 8) < 16 then _ else _) = _
  unfold pick
  have e : w / 8 * (i / (w / 8) + s) + i % (w / 8) = i + s * (w / 8) := by
    have := Nat.div_add_mod i (w / 8)
    rw [Nat.mul_add, Nat.mul_comm (w / 8) s]; omega
  rw [e]

end BE

open BE

variable {w v n m : Nat}

/-- C65: `move*_l<s>` of one register, `s` less than the number of lanes: lane `j` is lane `j + s`, zero past the end. -/
theorem C65_move_l (hw : IsW w) {s : Nat} (hs : s < 128 / w) (a : Vec w (128 / w)) :
    ∃ r, BE.move_l s a = some r ∧ ∀ j, j < 128 / w → r.at_ j = if j + s < 128 / w then a.at_ (j + s) else 0 := by
  refine ⟨_, (if_neg (by omega)).trans (slide_eq hw hs a (Vec.splat 0)), fun j hj => ?_⟩
  rw [Vec.at_lt _ hj]
  show pick a (Vec.splat 0) (j + s) = _
  unfold pick
  rw [BE.at_zero]

/-- C65: `move*_r<s>` of one register, `s` not zero: lane `j` is lane `j - s`, zero below. -/
theorem C65_move_r (hw : IsW w) {s : Nat} (h0 : 0 < s) (hs : s ≤ 128 / w) (a : Vec w (128 / w)) :
    ∃ r, BE.move_r s a = some r ∧ ∀ j, j < 128 / w → r.at_ j = if s ≤ j then a.at_ (j - s) else 0 := by
  obtain ⟨hq, hw8, hn, hL⟩ := isW_q hw
  have e : 16 - s * (w / 8) = (128 / w - s) * (w / 8) := by
    rw [Nat.sub_mul, Nat.mul_comm (128 / w), ← hn]
  have hs' : 128 / w - s < 128 / w := by omega
  refine ⟨_, (if_neg (by omega)).trans ((congrArg (fun k => BE.onBytes2 (fun x z => BE.sldBi k z x) a (Vec.splat 0)) e).trans
    (slide_eq hw hs' (Vec.splat 0) a)), fun j hj => ?_⟩
  rw [Vec.at_lt _ hj]
  show pick (Vec.splat 0) a (j + (128 / w - s)) = _
  unfold pick
  rw [BE.at_zero]
  by_cases h : s ≤ j
  · rw [if_neg (by omega), if_pos h]; congr 1; omega
  · rw [if_pos (by omega), if_neg h]

/-- C65: `align*<s>(lower, upper)` of one register, `s` less than the number of lanes. -/
theorem C65_align (hw : IsW w) {s : Nat} (hs : s < 128 / w) (a b : Vec w (128 / w)) :
    ∃ r, BE.align s a b = some r ∧
      ∀ j, j < 128 / w → r.at_ j = if j + s < 128 / w then a.at_ (j + s) else b.at_ (j + s - 128 / w) := by
  refine ⟨_, (if_neg (by omega)).trans (slide_eq hw hs a b), fun j hj => ?_⟩
  rw [Vec.at_lt _ hj]
  rfl

/-- C65: the literal 16 is out of range for `vec_sld`: `move*_l` and `align*` by a whole register and `move*_r` by zero do not
compile (on little-endian targets it is the other end of each range that does not). -/
theorem C65_move_reject (hw : IsW w) (a b : Vec w (128 / w)) :
    BE.move_l (128 / w) a = none ∧ BE.move_r 0 a = none ∧ BE.align (128 / w) a b = none := by
  obtain ⟨hq, hw8, hn, hL⟩ := isW_q hw
  have e : 128 / w * (w / 8) = 16 := by rw [Nat.mul_comm]; exact hn.symm
  refine ⟨?_, ?_, ?_⟩
  · unfold BE.move_l BE.onBytes2 BE.sldBi BE.sld; rw [e]; simp
  · unfold BE.move_r BE.onBytes2 BE.sldBi BE.sld; simp
  · unfold BE.align BE.onBytes2 BE.sldBi BE.sld; rw [e]; simp

example : (BE.move_l 3 (fun i : Fin 8 => BitVec.ofNat 16 (0x1100 + i.val))).map (fun r => (List.finRange 8).map r) =
    some [0x1103#16, 0x1104#16, 0x1105#16, 0x1106#16, 0x1107#16, 0#16, 0#16, 0#16] := by decide +kernel

/-! ## Unzip -/

namespace BE

theorem perm_eq {q : Nat} (hq : 0 < q) (hw : w = 8 * q) (hn : 16 = q * n) (a b : Vec w n) (σ : Nat → Nat) {k : Vec 8 16}
    (hσ : ∀ j, j < n → σ j < 2 * n) (hk : ∀ i : Fin 16, (k i).toNat = q * σ (i.val / q) + i.val % q) :
    recast w n (perm (recast 8 16 a) (recast 8 16 b) k) = fun j => pick a b (σ j.val) := by
  refine recast_pick hq hw hn a b σ hσ (fun i hi => ?_)
  rw [Vec.at_lt _ hi]
  have hj : i / q < n := Nat.div_lt_of_lt_mul (by omega)
  have hlt : (k ⟨i, hi⟩).toNat < 32 := by
    rw [hk]
    show q * σ (i / q) + i % q < 32
    have h1 : i % q < q := Nat.mod_lt _ hq
    calc q * σ (i / q) + i % q < q * σ (i / q) + q := by omega
      _ = q * (σ (i / q) + 1) := by ring
      _ ≤ q * (2 * n) := Nat.mul_le_mul_left _ (hσ _ hj)
      _ = 2 * (q * n) := by ring
      _ = 32 := by omega
  unfold perm pick
  rw [Nat.mod_eq_of_lt hlt, hk]

theorem unzip_lo_eq (hw : w = 8 ∨ w = 16 ∨ w = 32) (a b : Vec w (128 / w)) :
    BE.unzip_lo a b = some (fun j => pick a b (2 * j.val)) := by
  rcases hw with rfl | rfl | rfl
  · show some _ = _
    refine congrArg some (perm_eq (q := 1) (by decide) (by decide) (by decide) a b (2 * ·) (fun j hj => ?_) (by decide))
    have : 128 / 8 = 16 := rfl
    omega
  · show some _ = _
    refine congrArg some (perm_eq (q := 2) (by decide) (by decide) (by decide) a b (2 * ·) (fun j hj => ?_) (by decide))
    have : 128 / 16 = 8 := rfl
    omega
  · show some _ = _
    refine congrArg some (perm_eq (q := 4) (by decide) (by decide) (by decide) a b (2 * ·) (fun j hj => ?_) (by decide))
    have : 128 / 32 = 4 := rfl
    omega

theorem vpack_up (hm : n = 2 * m) (a b : Vec w n) :
    (vpack (recast (2 * w) m a) (recast (2 * w) m b) : Vec w n) = fun j => pick a b (2 * j.val + 1) := by
  have key : ∀ (x : Vec w n) (j : Nat), j < m → ((recast (2 * w) m x).at_ j).setWidth w = x.at_ (2 * j + 1) := by
    intro x j hj
    rw [Nat.two_mul, recast_up x j hj]
    apply BitVec.eq_of_getLsbD_eq; intro k hk
    rw [BitVec.getLsbD_setWidth, BitVec.getLsbD_append, if_pos hk]
    simp [hk]
  funext j
  have hj := j.isLt
  unfold vpack pick
  by_cases h : j.val < m
  · rw [if_pos h, if_pos (by omega), key _ _ h]
  · rw [if_neg h, if_neg (by omega), key _ _ (by omega)]
    congr 1; omega

theorem unzip_hi_eq (hw : w = 8 ∨ w = 16 ∨ w = 32) (a b : Vec w (128 / w)) :
    BE.unzip_hi a b = some (fun j => pick a b (2 * j.val + 1)) := by
  rcases hw with rfl | rfl | rfl
  · exact congrArg some (vpack_up (n := 128 / 8) (m := 128 / 8 / 2) (by decide) a b)
  · exact congrArg some (vpack_up (n := 128 / 16) (m := 128 / 16 / 2) (by decide) a b)
  · show some _ = _
    refine congrArg some (perm_eq (q := 4) (by decide) (by decide) (by decide) a b (2 * · + 1) (fun j hj => ?_) (by decide))
    have : 128 / 32 = 4 := rfl
    omega

theorem deint {L e : Nat} (hL : L = 2 * (L / 2)) (he : e < 2) (a b : Vec w L) :
    Spec.Deinterleaves L e a b (fun j => pick a b (2 * j.val + e)) := by
  intro q j hj hq
  obtain rfl : q = 0 := by
    rcases Nat.eq_zero_or_pos q with h | h
    · exact h
    · have : 1 * L ≤ q * L := Nat.mul_le_mul_right _ h
      omega
  simp only [Nat.zero_mul, Nat.zero_add]
  constructor
  · rw [Vec.at_lt _ (by omega)]
    show pick a b (2 * j + e) = _
    exact if_pos (by omega)
  · rw [Vec.at_lt _ (by omega)]
    show pick a b (2 * (L / 2 + j) + e) = _
    unfold pick
    rw [if_neg (by omega)]
    congr 1; omega

end BE

/-- C65: `unzip16`, `unzip8`, `unzip4` of one register: the even (odd) lanes of `a`, then those of `b`. -/
theorem C65_unzip (hw : w = 8 ∨ w = 16 ∨ w = 32) (a b : Vec w (128 / w)) :
    (∃ r, BE.unzip_lo a b = some r ∧ Spec.Deinterleaves (128 / w) 0 a b r) ∧
    (∃ r, BE.unzip_hi a b = some r ∧ Spec.Deinterleaves (128 / w) 1 a b r) := by
  have hL : 128 / w = 2 * (128 / w / 2) := by rcases hw with rfl | rfl | rfl <;> decide
  exact ⟨⟨_, unzip_lo_eq hw a b, deint hL (by decide) a b⟩, ⟨_, unzip_hi_eq hw a b, deint hL (by decide) a b⟩⟩

/-! ## Integer conversions -/

namespace BE

/-- `cat (zip_lo, zip_hi)` of two registers seen as lanes of twice the width. -/
theorem cat_merge {L : Nat} (hL : L = 2 * m) (h128 : 128 / w = L) (hm : 0 < m) (a b : Vec w L) {k : Nat} (hk : k < 2 * m) :
    (cat (recast (w + w) m (Hw.mergeh a b)) (recast (w + w) m (Hw.mergel a b)) : Vec (w + w) (2 * m)).at_ k = a.at_ k ++ b.at_ k := by
  have hi : ∀ j, j < m → (recast (w + w) m (Hw.mergeh a b)).at_ j = a.at_ j ++ b.at_ j := by
    intro j hj
    rw [recast_up _ j hj]
    unfold Hw.mergeh
    rw [h128, gather_at _ _ (by omega : 2 * j < L), gather_at _ _ (by omega : 2 * j + 1 < L), Nat.mod_eq_of_lt (by omega : 2 * j < L),
      Nat.mod_eq_of_lt (by omega : 2 * j + 1 < L), Nat.div_eq_of_lt (by omega : 2 * j < L), Nat.div_eq_of_lt (by omega : 2 * j + 1 < L)]
    simp only [show 2 * j % 2 = 0 by omega, show (2 * j + 1) % 2 ≠ 0 by omega, if_true, if_false, show 2 * j / 2 = j by omega,
      show (2 * j + 1) / 2 = j by omega, show j < L by omega, show ¬ L + j < L by omega, show L + j < 2 * L by omega,
      Nat.zero_mul, Nat.zero_add, Nat.add_sub_cancel_left]
  have lo : ∀ j, j < m → (recast (w + w) m (Hw.mergel a b)).at_ j = a.at_ (m + j) ++ b.at_ (m + j) := by
    intro j hj
    rw [recast_up _ j hj]
    unfold Hw.mergel
    rw [h128, gather_at _ _ (by omega : 2 * j < L), gather_at _ _ (by omega : 2 * j + 1 < L), Nat.mod_eq_of_lt (by omega : 2 * j < L),
      Nat.mod_eq_of_lt (by omega : 2 * j + 1 < L), Nat.div_eq_of_lt (by omega : 2 * j < L), Nat.div_eq_of_lt (by omega : 2 * j + 1 < L)]
    simp only [show 2 * j % 2 = 0 by omega, show (2 * j + 1) % 2 ≠ 0 by omega, if_true, if_false, show 2 * j / 2 = j by omega,
      show (2 * j + 1) / 2 = j by omega, show L / 2 = m by omega, show m + j < L by omega, show ¬ L + m + j < L by omega,
      show L + m + j < 2 * L by omega, Nat.zero_mul, Nat.zero_add, show L + m + j - L = m + j by omega]
  rw [Vec.at_lt _ hk]
  unfold cat
  dsimp only
  by_cases h : k < m
  · rw [if_pos h, hi _ h]
  · rw [if_neg h, lo _ (by omega), show m + (k - m) = k by omega]

theorem zero_append (x : BitVec w) : (0 : BitVec w) ++ x = x.setWidth (w + w) := by
  apply BitVec.eq_of_getLsbD_eq; intro k hk
  rw [BitVec.getLsbD_append, BitVec.getLsbD_setWidth]
  by_cases h : k < w
  · simp [h, hk]
  · simp [h, hk, BitVec.getLsbD_of_ge _ _ (by omega : w ≤ k)]

end BE

/-- C65: `to_uint16(uint8<16>)` and `to_uint32(uint16<8>)` zero-extend each lane. -/
theorem C65_extend (a : Vec 8 16) (b : Vec 16 8) :
    (∀ i, (BE.to_uint16 a i).toNat = (a i).toNat) ∧ (∀ i, (BE.to_uint32 b i).toNat = (b i).toNat) := by
  constructor
  · intro i
    have h := cat_merge (w := 8) (m := 8) (L := 16) rfl rfl (by decide) (Vec.splat 0) a i.isLt
    rw [Vec.at_fin, BE.at_zero, Vec.at_fin, zero_append] at h
    exact (congrArg BitVec.toNat h).trans (BitVec.toNat_setWidth_of_le (by decide))
  · intro i
    have h := cat_merge (w := 16) (m := 4) (L := 8) rfl rfl (by decide) (Vec.splat 0) b i.isLt
    rw [Vec.at_fin, BE.at_zero, Vec.at_fin, zero_append] at h
    exact (congrArg BitVec.toNat h).trans (BitVec.toNat_setWidth_of_le (by decide))

/-- C65: what `to_uint64(uint32<4>)` and `to_int64(int32<4>)` give on big-endian VSX 2.07: the value is in the upper half of
the lane. The documented result (the extended value) is obtained only for 0 and -1 (`to_int64`), 0 (`to_uint64`). -/
theorem C65_extend64_wrong (a : Vec 32 4) :
    (∀ i, (BE.to_uint64 a i).toNat = (a i).toNat * 2 ^ 32) ∧
    (∀ i, BE.to_int64 a i = (a i) ++ (a i).sshiftRight 31) ∧
    (∀ i, BE.to_uint64 a i = (a i).setWidth 64 ↔ a i = 0) ∧
    (∀ i, BE.to_int64 a i = (a i).signExtend 64 ↔ a i = 0 ∨ a i = -1) := by
  have hu : ∀ i, BE.to_uint64 a i = a i ++ 0#32 := by
    intro i
    have h := cat_merge (w := 32) (m := 2) (L := 4) rfl rfl (by decide) a (Vec.splat 0) i.isLt
    rw [Vec.at_fin, BE.at_zero, Vec.at_fin] at h
    exact h
  have hs : ∀ i, BE.to_int64 a i = (a i) ++ (a i).sshiftRight 31 := by
    intro i
    have h := cat_merge (w := 32) (m := 2) (L := 4) rfl rfl (by decide) a (a.map (fun x => x.sshiftRight 31)) i.isLt
    rw [Vec.at_fin, Vec.at_fin, Vec.at_fin] at h
    exact h
  have hun : ∀ i, (BE.to_uint64 a i).toNat = (a i).toNat * 2 ^ 32 := by
    intro i
    rw [hu, BitVec.toNat_append]
    show (a i).toNat <<< 32 ||| 0 = _
    rw [Nat.or_zero, Nat.shiftLeft_eq]
  refine ⟨hun, hs, fun i => ⟨fun h => ?_, fun h => ?_⟩, fun i => ⟨fun h => ?_, fun h => ?_⟩⟩
  · have h1 := congrArg BitVec.toNat h
    rw [hun, BitVec.toNat_setWidth_of_le (by decide)] at h1
    apply BitVec.eq_of_toNat_eq
    show (a i).toNat = 0
    omega
  · rw [hu, h]; decide
  · rw [hs] at h
    have hhi : a i = ((a i).signExtend 64).extractLsb' 32 32 := by
      rw [← h]
      apply BitVec.eq_of_getLsbD_eq; intro k hk
      rw [BitVec.getLsbD_extractLsb', BitVec.getLsbD_append]
      simp [hk]
    have key : ∀ x : BitVec 32, (x.signExtend 64).extractLsb' 32 32 = if x.msb then -1#32 else 0#32 := by
      intro x
      apply BitVec.eq_of_getLsbD_eq; intro k hk
      rw [BitVec.getLsbD_extractLsb', BitVec.getLsbD_signExtend]
      have h0 : -1#32 = BitVec.allOnes 32 := by decide
      cases hm : x.msb
      · simp [show ¬ 32 + k < 32 by omega]
      · simp only [hk, if_true, h0, BitVec.getLsbD_allOnes, show ¬ 32 + k < 32 by omega, if_false, decide_true, Bool.true_and,
          show 32 + k < 64 by omega]
    rw [key] at hhi
    cases hm : (a i).msb
    · rw [hm] at hhi; exact Or.inl hhi
    · rw [hm] at hhi; exact Or.inr hhi
  · rw [hs]
    rcases h with h | h <;> rw [h] <;> decide

example : BE.to_uint64 (fun _ => 1#32) 0 = 0x100000000#64 := by decide +kernel

/-- C65: `to_uint32(uint64<4>)` keeps the low half of each lane, with and without VSX 2.07. -/
theorem C65_shrink (vsx : Bool) (x y : Vec 64 2) :
    ∃ r, BE.shrink64 vsx x y = some r ∧ ∀ j, j < 2 → r.at_ j = (x.at_ j).setWidth 32 ∧ r.at_ (2 + j) = (y.at_ j).setWidth 32 := by
  cases vsx
  · refine ⟨_, unzip_hi_eq (w := 32) (by decide) _ _, fun j hj => ?_⟩
    have hx := (recast_down (w := 32) (n := 4) (m := 2) rfl x j hj).2
    have hy := (recast_down (w := 32) (n := 4) (m := 2) rfl y j hj).2
    constructor
    · rw [Vec.at_lt _ (show j < 4 by omega), ← hx]
      exact if_pos (show 2 * j + 1 < 4 by omega)
    · rw [Vec.at_lt _ (show 2 + j < 4 by omega), ← hy]
      refine (if_neg (show ¬ 2 * (2 + j) + 1 < 4 by omega)).trans ?_
      congr 1
      show 2 * (2 + j) + 1 - 4 = _
      omega
  · refine ⟨_, rfl, fun j hj => ?_⟩
    constructor
    · rw [Vec.at_lt _ (show j < 4 by omega)]
      exact if_pos hj
    · rw [Vec.at_lt _ (show 2 + j < 4 by omega)]
      refine (if_neg (show ¬ 2 + j < 2 by omega)).trans ?_
      show (y.at_ (2 + j - 2)).setWidth 32 = _
      congr 2; omega

end Simdpp
