import Verif.Props.BigEnd
import Verif.Props.Mul
import Verif.Props.MulPub
import Verif.Spec.Fp

/-!
# C65, second part: floating-point conversions, multiplication, bit extraction and 64-bit shuffles on big-endian builds
-/

namespace Simdpp

open Spec (IsW)
open Sh

namespace BE

variable {w v n m : Nat}

/-- `vec_mergeh`, `vec_mergel` of one register. -/
theorem merge_at {L : Nat} (hL : L = 2 * m) (h128 : 128 / w = L) (a b : Vec w L) {j : Nat} (hj : j < m) :
    ((Hw.mergeh a b).at_ (2 * j) = a.at_ j ∧ (Hw.mergeh a b).at_ (2 * j + 1) = b.at_ j) ∧
    ((Hw.mergel a b).at_ (2 * j) = a.at_ (m + j) ∧ (Hw.mergel a b).at_ (2 * j + 1) = b.at_ (m + j)) := by
  unfold Hw.mergeh Hw.mergel
  rw [h128]
  refine ⟨⟨?_, ?_⟩, ?_, ?_⟩
  · rw [gather_at _ _ (by omega : 2 * j < L), Nat.mod_eq_of_lt (by omega : 2 * j < L), Nat.div_eq_of_lt (by omega : 2 * j < L)]
    simp only [show 2 * j % 2 = 0 by omega, if_true, show 2 * j / 2 = j by omega, show j < L by omega, Nat.zero_mul, Nat.zero_add]
  · rw [gather_at _ _ (by omega : 2 * j + 1 < L), Nat.mod_eq_of_lt (by omega : 2 * j + 1 < L), Nat.div_eq_of_lt (by omega : 2 * j + 1 < L)]
    simp only [show (2 * j + 1) % 2 ≠ 0 by omega, if_false, show (2 * j + 1) / 2 = j by omega, show ¬ L + j < L by omega,
      show L + j < 2 * L by omega, if_true, Nat.zero_mul, Nat.zero_add, Nat.add_sub_cancel_left]
  · rw [gather_at _ _ (by omega : 2 * j < L), Nat.mod_eq_of_lt (by omega : 2 * j < L), Nat.div_eq_of_lt (by omega : 2 * j < L)]
    simp only [show 2 * j % 2 = 0 by omega, if_true, show 2 * j / 2 = j by omega, show L / 2 = m by omega, show m + j < L by omega,
      Nat.zero_mul, Nat.zero_add]
  · rw [gather_at _ _ (by omega : 2 * j + 1 < L), Nat.mod_eq_of_lt (by omega : 2 * j + 1 < L), Nat.div_eq_of_lt (by omega : 2 * j + 1 < L)]
    simp only [show (2 * j + 1) % 2 ≠ 0 by omega, if_false, show (2 * j + 1) / 2 = j by omega, show L / 2 = m by omega,
      show ¬ L + m + j < L by omega, show L + m + j < 2 * L by omega, if_true, Nat.zero_mul, Nat.zero_add,
      show L + m + j - L = m + j by omega]

theorem cat_at {k : Nat} (x y : Vec w m) {i : Nat} (hi : i < k) :
    (cat x y : Vec w k).at_ i = if i < m then x.at_ i else y.at_ (i - m) := by
  rw [Vec.at_lt _ hi]; rfl

end BE

open BE

/-! ## Floating-point conversions -/

/-- C65: `to_float64(float32<4>)` on big-endian VSX converts each lane. -/
theorem C65_f32_f64 (a : Vec 32 4) (i : Fin 4) : BE.f32_f64 a i = Spec.Fp.conv 64 (a i) := by
  have e : ∀ x : Vec 32 4, ∀ j, j < 2 → (xvcvspdp x).at_ j = Spec.Fp.conv 64 (x.at_ (2 * j)) := fun x j hj => by
    rw [Vec.at_lt _ hj]; rfl
  rw [← Vec.at_fin (BE.f32_f64 a), ← Vec.at_fin a]
  refine (cat_at _ _ i.isLt).trans ?_
  by_cases h : i.val < 2
  · rw [if_pos h, e _ _ h, (merge_at (m := 2) rfl rfl a _ h).1.1]
  · have := i.isLt
    rw [if_neg h, e _ _ (by omega), (merge_at (m := 2) rfl rfl a _ (by omega : i.val - 2 < 2)).2.1, show 2 + (i.val - 2) = i.val by omega]

/-- C65: `to_float32(float64<4>)` on big-endian VSX rounds each lane, whatever is in the undefined words. -/
theorem C65_f64_f32 (u1 u2 : Vec 32 4) (x y : Vec 64 2) :
    ∃ r, BE.f64_f32 u1 u2 x y = some r ∧
      ∀ j, j < 2 → r.at_ j = Spec.Fp.conv 32 (x.at_ j) ∧ r.at_ (2 + j) = Spec.Fp.conv 32 (y.at_ j) := by
  refine ⟨_, unzip_lo_eq (w := 32) (by decide) _ _, fun j hj => ?_⟩
  have e : ∀ (u : Vec 32 4) (z : Vec 64 2), (xvcvdpsp u z).at_ (2 * j) = Spec.Fp.conv 32 (z.at_ j) := fun u z => by
    rw [Vec.at_lt _ (show 2 * j < 4 by omega)]
    refine (if_pos (show 2 * j % 2 = 0 by omega)).trans ?_
    show Spec.Fp.conv 32 (z.at_ (2 * j / 2)) = _
    rw [show 2 * j / 2 = j by omega]
  constructor
  · rw [Vec.at_lt _ (show j < 4 by omega), ← e u1 x]
    exact if_pos (show 2 * j < 4 by omega)
  · rw [Vec.at_lt _ (show 2 + j < 4 by omega), ← e u2 y]
    refine (if_neg (show ¬ 2 * (2 + j) < 4 by omega)).trans ?_
    congr 1
    show 2 * (2 + j) - 4 = _
    omega

/-- C65: what `to_int32(float64<4>)` and `to_uint32(float64<4>)` give on big-endian VSX: the upper half of the 64-bit integer. -/
theorem C65_f64_i32_wrong (sg : Bool) (x y : Vec 64 2) :
    ∃ r, BE.f64_i32 sg x y = some r ∧
      ∀ j, j < 2 → r.at_ j = (Hw.fcvtz sg 64 (x.at_ j) : BitVec 64).extractLsb' 32 32 ∧
        r.at_ (2 + j) = (Hw.fcvtz sg 64 (y.at_ j) : BitVec 64).extractLsb' 32 32 := by
  refine ⟨_, unzip_lo_eq (w := 32) (by decide) _ _, fun j hj => ?_⟩
  have e : ∀ z : Vec 64 2, (recast 32 4 (z.map (Hw.fcvtz sg 64) : Vec 64 2)).at_ (2 * j) =
      (Hw.fcvtz sg 64 (z.at_ j) : BitVec 64).extractLsb' 32 32 := fun z => by
    rw [(recast_down (w := 32) (n := 4) (m := 2) rfl (z.map (Hw.fcvtz sg 64) : Vec 64 2) j hj).1, Vec.at_lt _ hj, Vec.at_lt z hj]
    rfl
  constructor
  · rw [Vec.at_lt _ (show j < 4 by omega), ← e x]
    exact if_pos (show 2 * j < 4 by omega)
  · rw [Vec.at_lt _ (show 2 + j < 4 by omega), ← e y]
    refine (if_neg (show ¬ 2 * (2 + j) < 4 by omega)).trans ?_
    congr 1
    show 2 * (2 + j) - 4 = _
    omega

/-- C65: every number with truncation in `[0, 2^32)` is converted to zero by `to_int32`, `to_uint32` on big-endian VSX. -/
theorem C65_f64_i32_zero (sg : Bool) (x y : Vec 64 2)
    (hx : ∀ j, Spec.Flt.isNaN (x j) = false ∧ 0 ≤ Spec.Fp.truncInt (x j) ∧ Spec.Fp.truncInt (x j) < 2 ^ 32) :
    ∃ r, BE.f64_i32 sg x y = some r ∧ ∀ j, j < 2 → r.at_ j = 0 := by
  obtain ⟨r, hr, h⟩ := C65_f64_i32_wrong sg x y
  refine ⟨r, hr, fun j hj => ?_⟩
  rw [(h j hj).1, Vec.at_lt _ hj]
  obtain ⟨h1, h2, h3⟩ := hx ⟨j, hj⟩
  generalize x ⟨j, hj⟩ = z at h1 h2 h3
  unfold Hw.fcvtz
  rw [if_neg (by rw [h1]; exact Bool.false_ne_true)]
  generalize Spec.Fp.truncInt z = t at h2 h3
  have hc : Spec.clamp sg 64 t = t := by
    unfold Spec.clamp
    cases sg <;> simp [Spec.lo, Spec.hi] <;> omega
  rw [hc]
  obtain ⟨k, rfl⟩ := Int.eq_ofNat_of_zero_le h2
  have hk : k < 2 ^ 32 := by exact_mod_cast h3
  apply BitVec.eq_of_toNat_eq
  rw [BitVec.extractLsb'_toNat]
  show ((BitVec.ofInt 64 (k : Int)).toNat >>> 32) % 2 ^ 32 = 0
  rw [BitVec.ofInt_natCast, BitVec.toNat_ofNat, Nat.shiftRight_eq_div_pow, Nat.mod_eq_of_lt (by omega : k < 2 ^ 64),
    Nat.div_eq_of_lt hk]

/-- C65: what `to_float64(uint32<4>)` and `to_float64(int32<4>)` give on big-endian VSX: the conversion of the value times
`2^32`, plus `2^32 - 1` if it is negative. -/
theorem C65_i32_f64_wrong (a : Vec 32 4) (i : Fin 4) :
    BE.i32_f64 false a i = Spec.Fp.ofInt 64 ((a i).toNat * 2 ^ 32) ∧
    BE.i32_f64 true a i = Spec.Fp.ofInt 64 ((a i).toInt * 2 ^ 32 + if (a i).toInt < 0 then 2 ^ 32 - 1 else 0) := by
  obtain ⟨h1, h2, -, -⟩ := C65_extend64_wrong a
  constructor
  · show Spec.Fp.ofInt 64 (Spec.val false (BE.to_uint64 a i)) = _
    congr 1
    show ((BE.to_uint64 a i).toNat : Int) = _
    rw [h1]; push_cast; rfl
  · show Spec.Fp.ofInt 64 (Spec.val true (BE.to_int64 a i)) = _
    congr 1
    show (BE.to_int64 a i).toInt = _
    rw [h2]
    generalize a i = z
    have hs : z.sshiftRight 31 = if z.toInt < 0 then -1#32 else 0#32 := by
      apply BitVec.eq_of_toInt_eq
      rw [BitVec.toInt_sshiftRight, Int.shiftRight_eq_div_pow]
      have h1 : -2 ^ 31 ≤ z.toInt := BitVec.le_toInt z
      have h2 : z.toInt < 2 ^ 31 := BitVec.toInt_lt
      split_ifs with g
      · show _ = (-1 : Int); omega
      · show _ = (0 : Int); omega
    rw [hs]
    have hn : (z ++ (if z.toInt < 0 then -1#32 else 0#32) : BitVec 64).toNat = z.toNat * 2 ^ 32 + if z.toInt < 0 then 2 ^ 32 - 1 else 0 := by
      rw [BitVec.toNat_append]
      split_ifs
      · show z.toNat <<< 32 ||| (2 ^ 32 - 1) = _
        rw [← Nat.shiftLeft_add_eq_or_of_lt (by decide : 2 ^ 32 - 1 < 2 ^ 32), Nat.shiftLeft_eq]
      · show z.toNat <<< 32 ||| 0 = _
        rw [Nat.or_zero, Nat.shiftLeft_eq, Nat.add_zero]
    generalize (z ++ (if z.toInt < 0 then -1#32 else 0#32) : BitVec 64) = u at hn ⊢
    rw [BitVec.toInt_eq_toNat_cond]
    have hz := z.isLt
    have e := BitVec.toInt_eq_toNat_cond z
    by_cases g : 2 * z.toNat < 2 ^ 32
    · rw [if_pos g] at e
      have g' : ¬ z.toInt < 0 := by omega
      rw [if_neg g'] at hn ⊢
      rw [if_pos (by omega)]
      omega
    · rw [if_neg g] at e
      have g' : z.toInt < 0 := by push_cast at e; omega
      rw [if_pos g'] at hn ⊢
      rw [if_neg (by omega)]
      push_cast at e ⊢
      omega

example : BE.f64_i32 true (fun _ => 0x4014000000000000#64) (fun _ => 0x4014000000000000#64) = some (fun _ => 0) := by
  decide +kernel

/-! ## Multiplication -/

namespace BE

theorem cat_mul {w v L m : Nat} (hL : L = 2 * m) (hm2 : m = 2 * (m / 2)) (h128 : 128 / v = m) (sg : Bool) (a b : Vec w L) {k : Nat} (hk : k < L) :
    (cat (Hw.mergeh (Hw.vmul_eo 0 sg v a b : Vec v m) (Hw.vmul_eo 1 sg v a b)) (Hw.mergel (Hw.vmul_eo 0 sg v a b : Vec v m) (Hw.vmul_eo 1 sg v a b)) : Vec v L).at_ k =
      Hw.mulLane sg v (a.at_ k) (b.at_ k) := by
  have e : ∀ o j, j < m → (Hw.vmul_eo o sg v a b : Vec v m).at_ j = Hw.mulLane sg v (a.at_ (2 * j + o)) (b.at_ (2 * j + o)) := fun o j hj => by
    rw [Vec.at_lt _ hj]; rfl
  rw [cat_at _ _ hk]
  have par : ∀ t, t = 2 * (t / 2) ∨ t = 2 * (t / 2) + 1 := fun t => by omega
  by_cases h : k < m
  · rw [if_pos h]
    have M := (merge_at (m := m / 2) hm2 h128 (Hw.vmul_eo 0 sg v a b : Vec v m) (Hw.vmul_eo 1 sg v a b) (by omega : k / 2 < m / 2)).1
    rcases par k with g | g
    · conv_lhs => rw [g]
      rw [M.1, e _ _ (by omega), show 2 * (k / 2) + 0 = k by omega]
    · conv_lhs => rw [g]
      rw [M.2, e _ _ (by omega), show 2 * (k / 2) + 1 = k by omega]
  · rw [if_neg h]
    have M := (merge_at (m := m / 2) hm2 h128 (Hw.vmul_eo 0 sg v a b : Vec v m) (Hw.vmul_eo 1 sg v a b) (by omega : (k - m) / 2 < m / 2)).2
    rcases par (k - m) with g | g
    · conv_lhs => rw [g]
      rw [M.1, e _ _ (by omega), show 2 * (m / 2 + (k - m) / 2) + 0 = k by omega]
    · conv_lhs => rw [g]
      rw [M.2, e _ _ (by omega), show 2 * (m / 2 + (k - m) / 2) + 1 = k by omega]

end BE

/-- C65: `mull` of 16-bit lanes, and of 32-bit lanes on VSX 2.07, is the full product of each lane. -/
theorem C65_mull (sg : Bool) (a b : Vec 16 8) (x y : Vec 32 4) :
    (∀ i, Spec.val sg (BE.mull16 sg a b i) = Spec.val sg (a i) * Spec.val sg (b i)) ∧
    (∀ i, Spec.val sg (BE.mull32 sg x y i) = Spec.val sg (x i) * Spec.val sg (y i)) := by
  constructor
  · intro i
    have h := cat_mul (w := 16) (v := 32) (m := 4) rfl rfl rfl sg a b i.isLt
    rw [Vec.at_fin, Vec.at_fin, Vec.at_fin] at h
    exact (congrArg (Spec.val sg) h).trans (val_mulLane sg (by decide) (by decide) _ _)
  · intro i
    have h := cat_mul (w := 32) (v := 64) (m := 2) rfl rfl rfl sg x y i.isLt
    rw [Vec.at_fin, Vec.at_fin, Vec.at_fin] at h
    exact (congrArg (Spec.val sg) h).trans (val_mulLane sg (by decide) (by decide) _ _)

/-- C65: `mul_hi` of 16-bit lanes is the upper half of each product. -/
theorem C65_mul_hi (sg : Bool) (a b : Vec 16 8) :
    ∃ r, BE.mul_hi sg a b = some r ∧ ∀ i, r i = Spec.lane 16 (Spec.val sg (a i) * Spec.val sg (b i) / 2 ^ 16) := by
  refine ⟨_, unzip_lo_eq (w := 16) (by decide) _ _, fun i => ?_⟩
  have hp : ∀ q, q < 2 → ∀ j, j < 4 → (recast 16 8 (Hw.part 4 q (BE.mull16 sg a b) : Vec 32 4)).at_ (2 * j) =
      Spec.lane 16 (Spec.val sg (a.at_ (q * 4 + j)) * Spec.val sg (b.at_ (q * 4 + j)) / 2 ^ 16) := by
    intro q hq j hj
    rw [(recast_down (w := 16) (n := 8) (m := 4) rfl (Hw.part 4 q (BE.mull16 sg a b) : Vec 32 4) j hj).1, Vec.at_lt _ hj]
    show BitVec.extractLsb' 16 16 ((BE.mull16 sg a b).at_ (q * 4 + j)) = _
    have h := cat_mul (w := 16) (v := 32) (m := 4) rfl rfl rfl sg a b (show q * 4 + j < 8 by omega)
    rw [show (BE.mull16 sg a b).at_ (q * 4 + j) = _ from h]
    have := high_lane sg (Hw.mulLane sg (2 * 16) (a.at_ (q * 4 + j)) (b.at_ (q * 4 + j))) (by decide)
    rw [val_mulLane sg (by decide) (by decide)] at this
    exact this
  rw [← Vec.at_fin a, ← Vec.at_fin b]
  have hi := i.isLt
  by_cases h : i.val < 4
  · refine (if_pos (show 2 * i.val < 8 by omega)).trans ?_
    have := hp 0 (by decide) i.val h
    rw [show 0 * 4 + i.val = i.val by omega] at this
    exact this
  · refine (if_neg (show ¬ 2 * i.val < 8 by omega)).trans ?_
    have hi8 : i.val < 8 := i.isLt
    have := hp 1 (by decide) (i.val - 4) (by omega)
    rw [show 1 * 4 + (i.val - 4) = i.val by omega] at this
    rw [← this]
    congr 1
    show 2 * i.val - 8 = _
    omega

/-- C65: `mul_lo` of 32-bit lanes without VSX 2.07 is the product of each lane modulo `2^32`. -/
theorem C65_mul_lo (a b : Vec 32 4) : BE.mul_lo a b = some (fun i => a i * b i) := by
  obtain ⟨sa, ha, hsa⟩ := C65_move_r (w := 16) (Or.inr (Or.inl rfl)) (s := 1) (by decide) (by decide) (recast 16 8 a)
  obtain ⟨sb, hb, hsb⟩ := C65_move_r (w := 16) (Or.inr (Or.inl rfl)) (s := 1) (by decide) (by decide) (recast 16 8 b)
  unfold BE.mul_lo
  refine (bind_of ha _).trans ?_
  refine (bind_of hb _).trans ?_
  refine congrArg some (funext fun i => ?_)
  have hi := i.isLt
  have ea := recast_down (w := 16) (n := 8) (m := 4) rfl a i.val hi
  have eb := recast_down (w := 16) (n := 8) (m := 4) rfl b i.val hi
  have ga := hsa (2 * i.val + 1) (show 2 * i.val + 1 < 8 by omega)
  have gb := hsb (2 * i.val + 1) (show 2 * i.val + 1 < 8 by omega)
  rw [if_pos (by omega), Nat.add_sub_cancel] at ga gb
  show ((Hw.mulLane false 32 ((recast 16 8 a).at_ (2 * i.val + 1)) (sb.at_ (2 * i.val + 1)) +
      Hw.mulLane false 32 (sa.at_ (2 * i.val + 1)) ((recast 16 8 b).at_ (2 * i.val + 1))) <<< 16) +
      Hw.mulLane false 32 ((recast 16 8 a).at_ (2 * i.val + 1)) ((recast 16 8 b).at_ (2 * i.val + 1)) = _
  rw [ga, gb]
  rw [show (recast 16 8 a).at_ (2 * i.val) = _ from ea.1, show (recast 16 8 b).at_ (2 * i.val) = _ from eb.1,
    show (recast 16 8 a).at_ (2 * i.val + 1) = _ from ea.2, show (recast 16 8 b).at_ (2 * i.val + 1) = _ from eb.2, Vec.at_fin, Vec.at_fin]
  have low : ∀ z : BitVec 32, z.setWidth 16 = z.extractLsb' 0 16 := fun z => by
    apply BitVec.eq_of_getLsbD_eq; intro k hk
    simp [BitVec.getLsbD_extractLsb']
  rw [low, low]
  exact mul_halves (a i) (b i)

/-! ## One bit per lane -/

namespace BE

theorem low3_eq (s : Vec 32 4) : low3 s = (s.recast 16 8 : Vec 16 8).at_ 6 := by
  have h := (recast_down (w := 16) (n := 8) (m := 4) rfl s 3 (by decide)).2
  rw [recast_at (w := 32) (v := 16) (q := 2) (by decide) (by decide) (by decide) (by decide)]
  refine h.trans ?_
  apply BitVec.eq_of_getLsbD_eq; intro k hk
  show _ = (BitVec.extractLsb' 0 16 (s.at_ 3)).getLsbD k
  simp [BitVec.getLsbD_extractLsb']

end BE

/-- C65: `extract_bits_any` of 8-bit lanes: bit `i` is bit `i % 8` of lane `i`. -/
theorem C65_extract_any8 (a : Vec 8 16) : AnyBit a (BE.extract_any8 a) := by
  refine ⟨fun i => i % 8, fun i => Nat.mod_lt _ (by decide), fun i => ?_⟩
  have hv : ∀ j, j < 16 → Vec.at_ (fun i => a i &&& (pows 8 : Vec 8 16) i : Vec 8 16) j = if (a.at_ j).getLsbD (j % 8) then 1#8 <<< (j % 8) else 0 :=
    fun j hj => masked_at a (by decide) (by decide) hj
  unfold BE.extract_any8
  dsimp only
  generalize (fun i => a i &&& (pows 8 : Vec 8 16) i : Vec 8 16) = v at hv
  refine (congrArg (fun t : BitVec 16 => t.getLsbD i) ((BE.low3_eq _).trans (sums_at _ ?_))).trans ?_
  rotate_left
  · have hsum : ∀ q : Fin 4, Hw.sl_mod (Hw.sum4s false v (Vec.splat 0) : Vec 32 4) (cyc [0, 0, 8, 8]) q =
        Hw.packBits 32 (fun j => (a.at_ (4 * q.val + j)).getLsbD ((4 * q.val + j) % 8)) 4 <<< (4 * q.val) := by
      intro q
      show (Hw.sum4s false v (Vec.splat 0) : Vec 32 4) q <<< _ = _
      rw [sum4s_masked hv q, ← BitVec.shiftLeft_add]
      congr 1
      obtain rfl | rfl | rfl | rfl : q = 0 ∨ q = 1 ∨ q = 2 ∨ q = 3 := by omega
      all_goals rfl
    rw [hsum, hsum, hsum, hsum]
    have := eb_nibbles (f := fun j => (a.at_ j).getLsbD (j % 8))
    rw [show (((0 : Fin 4).val)) = 0 from rfl, show (((1 : Fin 4).val)) = 1 from rfl, show (((2 : Fin 4).val)) = 2 from rfl, show (((3 : Fin 4).val)) = 3 from rfl]
    simp only [Nat.mul_zero, Nat.zero_add, BitVec.shiftLeft_zero, Nat.mul_one, Nat.reduceMul] at this ⊢
    rw [this, BitVec.getLsbD_setWidth, packBits_get (by decide)]
    by_cases hi : i < 16 <;> simp [hi]
  · intro q
    show BitVec.toNat ((Hw.sum4s false v (Vec.splat 0) : Vec 32 4) q <<< (((cyc [0, 0, 8, 8] : Vec 32 4) q).toNat % 32)) < _
    rw [sum4s_masked hv q, ← BitVec.shiftLeft_add]
    refine eb_shl_lt (packBits_lt (by decide)) ?_
    have hq := q.isLt
    obtain rfl | rfl | rfl | rfl : q = 0 ∨ q = 1 ∨ q = 2 ∨ q = 3 := by omega
    all_goals decide

/-- C65: `extract_bits_any` of 32-bit lanes: bit `i` is bit `i` of lane `i`. -/
theorem C65_extract_any32 (a : Vec 32 4) : AnyBit a (BE.extract_any32 a) := by
  have hv : ∀ j, j < 4 → Vec.at_ (fun i => a i &&& (pows 4 : Vec 32 4) i : Vec 32 4) j = if (a.at_ j).getLsbD (j % 4) then 1#32 <<< (j % 4) else 0 :=
    fun j hj => masked_at a (by decide) (by decide) hj
  refine anyBit_packed (sel := fun i => i % 4) (fun i => by omega) (by decide) ?_
  unfold BE.extract_any32
  dsimp only
  obtain ⟨v, hva⟩ : ∃ v : Vec 32 4, v = (fun i => a i &&& (pows 4 : Vec 32 4) i : Vec 32 4) := ⟨_, rfl⟩
  rw [← hva] at hv ⊢
  have hq : ∀ q : Fin 4, v q = if (a.at_ q.val).getLsbD (q.val % 4) then 1#32 <<< (q.val % 4) else 0 := fun q => by
    rw [← hv _ q.isLt, Vec.at_fin]
  refine (congrArg (fun t : BitVec 16 => t.setWidth 8) ((BE.low3_eq _).trans (sums_at _ ?_))).trans ?_
  · intro q; rw [hq]
    have := q.isLt
    obtain rfl | rfl | rfl | rfl : q = 0 ∨ q = 1 ∨ q = 2 ∨ q = 3 := by omega
    all_goals split_ifs <;> decide
  · rw [hq, hq, hq, hq]
    have e := packBits4 (W := 32) (f := fun j => (a.at_ j).getLsbD (j % 4)) (by decide)
    refine (congrArg (fun t : BitVec 32 => (t.setWidth 16).setWidth 8) e.symm).trans ?_
    rw [setWidth_packed (by decide) (by decide), setWidth_packed (by decide) (by decide)]

namespace BE

/-- The byte masks of a 16-bit lane: the power of two is in the odd byte. -/
theorem mask16_bytes (a : Vec 16 8) {j : Nat} (hj : j < 8) :
    (recast 8 16 (fun i => a i &&& (pows 8 : Vec 16 8) i : Vec 16 8)).at_ (2 * j) = 0 ∧
    (recast 8 16 (fun i => a i &&& (pows 8 : Vec 16 8) i : Vec 16 8)).at_ (2 * j + 1) =
      if (a.at_ j).getLsbD j then 1#8 <<< j else 0 := by
  have hv := masked_at (k := 8) a (by decide) (by decide) hj
  rw [Nat.mod_eq_of_lt hj] at hv
  have h := recast_down (w := 8) (n := 16) (m := 8) rfl (fun i => a i &&& (pows 8 : Vec 16 8) i : Vec 16 8) j hj
  rw [show (Vec.at_ (w := 8 + 8) (fun i => a i &&& (pows 8 : Vec 16 8) i : Vec 16 8) j) = _ from hv] at h
  refine ⟨h.1.trans ?_, h.2.trans ?_⟩
  · interval_cases j <;> split_ifs <;> decide
  · interval_cases j <;> split_ifs <;> decide

theorem sum4s_16 (a : Vec 16 8) (q : Fin 4) :
    (Hw.sum4s false (recast 8 16 (fun i => a i &&& (pows 8 : Vec 16 8) i : Vec 16 8) : Vec 8 16) (Vec.splat 0) : Vec 32 4) q =
      (if (a.at_ (2 * q.val)).getLsbD (2 * q.val) then 1#32 <<< (2 * q.val) else 0) +
      (if (a.at_ (2 * q.val + 1)).getLsbD (2 * q.val + 1) then 1#32 <<< (2 * q.val + 1) else 0) := by
  have hq := q.isLt
  rw [sum4s_at]
  have e0 := mask16_bytes a (show 2 * q.val < 8 by omega)
  have e1 := mask16_bytes a (show 2 * q.val + 1 < 8 by omega)
  rw [show 4 * q.val = 2 * (2 * q.val) by omega, show 2 * (2 * q.val) + 2 = 2 * (2 * q.val + 1) by omega,
    show 2 * (2 * q.val) + 3 = 2 * (2 * q.val + 1) + 1 by omega, e0.1, e0.2, e1.1, e1.2]
  obtain e | e | e | e : q.val = 0 ∨ q.val = 1 ∨ q.val = 2 ∨ q.val = 3 := by omega
  all_goals rw [e]; split_ifs <;> decide

end BE

/-- C65: `extract_bits_any` of 16-bit lanes: bit `i` is bit `i` of lane `i`. -/
theorem C65_extract_any16 (a : Vec 16 8) : AnyBit a (BE.extract_any16 a) := by
  refine anyBit_packed (sel := fun i => i % 8) (fun i => by omega) (by decide) ?_
  unfold BE.extract_any16
  dsimp only
  refine (congrArg (fun t : BitVec 16 => t.setWidth 8) ((BE.low3_eq _).trans (sums_at _ ?_))).trans ?_
  · intro q
    rw [BE.sum4s_16 a q]
    have := q.isLt
    obtain rfl | rfl | rfl | rfl : q = 0 ∨ q = 1 ∨ q = 2 ∨ q = 3 := by omega
    all_goals split_ifs <;> decide
  · rw [BE.sum4s_16, BE.sum4s_16, BE.sum4s_16, BE.sum4s_16]
    have e := packBits8 (W := 32) (f := fun j => (a.at_ j).getLsbD (j % 8)) (by decide)
    refine Eq.trans ?_ ((congrArg (fun t : BitVec 32 => (t.setWidth 16).setWidth 8) e.symm).trans ?_)
    · simp only [← BitVec.add_assoc]
      rfl
    · rw [setWidth_packed (by decide) (by decide), setWidth_packed (by decide) (by decide)]

/-- C65: `extract_bits_any` of 64-bit lanes on VSX 2.07: bit `i` is bit `32 + i` of lane `i` (on little-endian targets it is
bit `i`; either is allowed). -/
theorem C65_extract_any64 (a : Vec 64 2) : AnyBit a (BE.extract_any64 a) := by
  refine anyBit_packed (sel := fun i => 32 + i % 2) (fun i => by omega) (by decide) ?_
  have hq : ∀ q : Fin 4, (fun i => (recast 32 4 a : Vec 32 4) i &&& (cyc [1, 0, 2, 0] : Vec 32 4) i : Vec 32 4) q =
      if q.val % 2 = 0 then (if (a.at_ (q.val / 2)).getLsbD (32 + q.val / 2) then 1#32 <<< (q.val / 2) else 0) else 0 := by
    intro q
    have hq := q.isLt
    have hc : ∀ q : Fin 4, (cyc [1, 0, 2, 0] : Vec 32 4) q = if q.val % 2 = 0 then BitVec.ofNat 32 (2 ^ (q.val / 2)) else 0 := by decide
    show (recast 32 4 a : Vec 32 4) q &&& (cyc [1, 0, 2, 0] : Vec 32 4) q = _
    rw [hc]
    split_ifs with h g g
    · have hd := (recast_down (w := 32) (n := 4) (m := 2) rfl a (q.val / 2) (by omega)).1
      rw [show 2 * (q.val / 2) = q.val by omega, Vec.at_fin] at hd
      rw [hd, and_pow _ (by omega), BitVec.getLsbD_extractLsb', g]
      simp [show q.val / 2 < 32 by omega]
    · have hd := (recast_down (w := 32) (n := 4) (m := 2) rfl a (q.val / 2) (by omega)).1
      rw [show 2 * (q.val / 2) = q.val by omega, Vec.at_fin] at hd
      rw [hd, and_pow _ (by omega), BitVec.getLsbD_extractLsb', if_neg]
      simp only [Bool.and_eq_true, not_and]
      exact fun _ => g
    · exact BitVec.and_zero
  unfold BE.extract_any64
  dsimp only
  obtain ⟨v, hva⟩ : ∃ v : Vec 32 4, v = (fun i => (recast 32 4 a : Vec 32 4) i &&& (cyc [1, 0, 2, 0] : Vec 32 4) i : Vec 32 4) := ⟨_, rfl⟩
  rw [← hva] at hq ⊢
  refine (congrArg (fun t : BitVec 16 => t.setWidth 8) ((BE.low3_eq _).trans (sums_at _ ?_))).trans ?_
  · intro q; rw [hq]
    have := q.isLt
    obtain rfl | rfl | rfl | rfl : q = 0 ∨ q = 1 ∨ q = 2 ∨ q = 3 := by omega
    all_goals split_ifs <;> decide
  · rw [hq, hq, hq, hq]
    have e := packBits2 (W := 32) (f := fun j => (a.at_ j).getLsbD (32 + j % 2)) (by decide)
    refine Eq.trans ?_ ((congrArg (fun t : BitVec 32 => (t.setWidth 16).setWidth 8) e.symm).trans ?_)
    · show ((((if (a.at_ 0).getLsbD 32 then 1#32 <<< 0 else 0) + 0#32 + (if (a.at_ 1).getLsbD 33 then 1#32 <<< 1 else 0) + 0#32 : BitVec 32)).setWidth 16).setWidth 8 = _
      rw [BitVec.add_zero, BitVec.add_zero]
    · rw [setWidth_packed (by decide) (by decide), setWidth_packed (by decide) (by decide)]

/-! ## 64-bit shuffles -/

/-- C65: what `permute2<s0,s1>` gives on big-endian VSX: the selectors are swapped. -/
theorem C65_permute2_wrong (s0 s1 : Nat) (h0 : s0 < 2) (h1 : s1 < 2) (a : Vec 64 2) :
    ∃ r, BE.permute2 s0 s1 a = some r ∧ r.at_ 0 = a.at_ s1 ∧ r.at_ 1 = a.at_ s0 := by
  refine ⟨_, if_pos ⟨h0, h1⟩, ?_, ?_⟩ <;> interval_cases s0 <;> interval_cases s1 <;> rfl

/-- C65: what `shuffle2x2<s0,s1>` of 64-bit lanes gives on big-endian VSX (selectors 0, 1 are the lanes of `a` and 2, 3 those of
`b`). The documented lanes if `s0` is in `b` and `s1` in `a`; else each lane is from the right argument, but it is the one at the
place the other selector asks for. -/
theorem C65_shuffle2x2_wrong (s0 s1 : Nat) (h0 : s0 < 4) (h1 : s1 < 4) (a b : Vec 64 2) :
    ∃ r, BE.shuffle2x2 s0 s1 a b = some r ∧
      if 2 ≤ s0 ∧ s1 < 2 then r.at_ 0 = b.at_ (s0 - 2) ∧ r.at_ 1 = a.at_ s1
      else r.at_ 0 = (if s0 < 2 then a else b).at_ (s1 % 2) ∧ r.at_ 1 = (if s1 < 2 then a else b).at_ (s0 % 2) := by
  unfold BE.shuffle2x2
  rw [if_pos ⟨h0, h1⟩]
  interval_cases s0 <;> interval_cases s1 <;> exact ⟨_, rfl, rfl, rfl⟩

end Simdpp
