import Verif.Props.Mull
import Verif.Props.Samples

/-!
# C03: integer multiplication

`mul_lo` (16 and 32 bits), `mul_hi` (16 bits) and `mull` (16 and 32 bits), signed and unsigned. Two parts of the full
statement fail and are shown to fail: `mul_lo` on 16-bit lanes in the portable backend is undefined for large operands, and
signed 32-bit `mull` is missing on some instruction sets.
-/

namespace Simdpp
open Spec Sh

variable {w v n N : Nat}

theorem vmull_part (sg : Bool) {m : Nat} (I : Nat) (a b : Vec w N) :
    Hw.vmull sg v (Hw.part m I a) (Hw.part m I b) = Hw.part m I (Hw.vmull sg v a b) := by
  refine ext_at fun j hj => ?_
  rw [vmull_at _ _ _ hj, Hw.part_at _ hj, Hw.part_at _ hj, Hw.part_at _ hj]
  by_cases g : I * m + j < N
  · rw [vmull_at _ _ _ g]
  · rw [Vec.at_ge _ (by omega), Vec.at_ge _ (by omega), Vec.at_ge _ (by omega)]
    have e0 : Hw.extLane sg v (0 : BitVec w) = 0 := by
      cases sg
      · simp [Hw.extLane]
      · apply BitVec.eq_of_getLsbD_eq; intro k hk; simp [Hw.extLane, BitVec.getLsbD_signExtend]
    unfold Hw.mulLane
    rw [e0]; simp

theorem subvecFill_eq {m md K : Nat} (hmd : 0 < md) (hm : 0 < m) (hd : md ∣ m) (hN : N = K * m) {g : Nat → Option (Vec v m)}
    {T : Vec v N} (hg : ∀ I, g I = some (Hw.part m I T)) : subvecFill md md K g = some T := by
  have e : g = fun I => some (Hw.part m I T) := funext hg
  subst e
  exact (if_pos rfl).trans (convUp_eq (G := id) (f := some) (q := m / md) hmd (Nat.div_mul_cancel hd) hm hN (fun _ => rfl) T)

section
variable {c : Cfg} (h : c.Ok)
include h

/-- The products of one of the widest registers are an array of the widest registers. -/
theorem regOf_prod (hw : w = 16 ∨ w = 32) : c.regOf (2 * w) ((c.fast w).lanes w) = c.fast (2 * w) := by
  unfold Cfg.regOf Cfg.fast Cfg.hasInt
  rcases fast_cases h with ⟨h1, h2, h3⟩ | ⟨h1, h2, h3⟩ | ⟨h1, h2, h3⟩ | ⟨h1, h2, h3⟩ <;> simp only [h1, h2, h3] <;>
    rcases hw with e | e <;> subst e <;> decide

omit h in
theorem transport_mull {L : Nat} (e : N = L) (sg : Bool) (a b : Vec w N) :
    (e ▸ Hw.vmull sg v (e ▸ a : Vec w L) (e ▸ b : Vec w L) : Vec v N) = Hw.vmull sg v a b := by subst e; rfl

theorem mullAll_eq (sg : Bool) (hw : w = 16 ∨ w = 32) (hv : v = 2 * w) (hN : c.VLen w N)
    {f : Reg → Vec w ((c.regOf w N).lanes w) → Vec w ((c.regOf w N).lanes w) → Option (Vec v ((c.regOf w N).lanes w))}
    (hf : c.hasInt w (c.regOf w N) = true → ∀ x y, f (c.regOf w N) x y = some (Hw.vmull sg v x y)) (a b : Vec w N) :
    mullAll c f a b = some (Hw.vmull sg v a b) := by
  have hwW : IsW w := by rcases hw with e | e <;> subst e; exacts [iw16, iw32]
  have hvW : IsW v := by subst hv; rcases hw with e | e <;> subst e; exacts [iw32, iw64]
  obtain ⟨hr, hc⟩ := VLen.cases h hwW hN
  have hf := hf hr
  unfold mullAll
  dsimp only
  by_cases g : N = (c.regOf w N).lanes w
  · rw [dif_pos g, hf]
    exact congrArg some (transport_mull g sg a b)
  · rw [dif_neg g]
    obtain ⟨K, hK, e, e2⟩ : ∃ K, 2 ≤ K ∧ N = K * (c.fast w).lanes w ∧ c.regOf w N = c.fast w := hc.resolve_left g
    have e3 : c.regOf v N = c.fast v := by
      have := regOf_multi h hwW hvW (by omega) hK
      rw [← e] at this; exact this
    have hL := lanes_pos hwW (c.fast w)
    have hK' : N / (c.regOf w N).lanes w = K := by rw [e2]; exact Nat.div_eq_of_eq_mul_left hL e
    have e4 : c.regOf v ((c.regOf w N).lanes w) = c.fast v := by rw [e2]; subst hv; exact regOf_prod h hw
    rw [hK', e3, e4]
    refine subvecFill_eq (lanes_pos hvW _) (by rw [e2]; exact hL) ?_ (by rw [e2]; exact e) fun I => ?_
    · rw [e2]; exact ⟨_, ((Nat.mul_comm _ _).trans (fast_ratio h hwW hvW (by omega))).symm⟩
    rw [hf, vmull_part]

theorem i_mull16_eq (sg : Bool) (hN : c.VLen 16 N) (a b : Vec 16 N) : i_mull16 c sg a b = some (Hw.vmull sg 32 a b) :=
  mullAll_eq h sg (Or.inl rfl) rfl hN (fun hr x y => mull16_eq h sg hr rfl x y) a b

theorem i_mull32_eq (sg : Bool) (hN : c.VLen 32 N) (hx : sg = true → ¬ Mull32Missing c (c.regOf 32 N)) (a b : Vec 32 N) :
    i_mull32 c sg a b = some (Hw.vmull sg 64 a b) :=
  mullAll_eq h sg (Or.inr rfl) rfl hN (fun hr x y => mull32_eq h sg hr rfl hx x y) a b

theorem i_mul_hi_eq (sg : Bool) {r : Reg} (hr : c.hasInt 16 r = true) (hn : n = r.lanes 16) (a b : Vec 16 n) :
    i_mul_hi c sg r a b = some (Hw.mulhi sg a b) := by
  unfold i_mul_hi
  cases r
  case r256 => exact if_pos hr
  case r512 => exact if_pos hr
  dsimp only
  change n = 8 at hn
  subst hn
  have unz : ∀ (lo hi : Vec 32 4), (∀ j, j < 4 → lo.at_ j = Hw.mulLane sg 32 (a.at_ j) (b.at_ j)) →
      (∀ j, j < 4 → hi.at_ j = Hw.mulLane sg 32 (a.at_ (4 + j)) (b.at_ (4 + j))) →
      i_unzip_hi c .int .r128 (lo.recast 16 8) (hi.recast 16 8) = some (Hw.mulhi sg a b) := by
    intro lo hi e1 e2
    rw [i_unzip_hi_eq h (k := .int) (w := 16) (n := 8) (r := .r128) iw16 rfl rfl]
    refine congrArg some (ext_at fun j hj => ?_)
    rw [gather_at _ _ hj, mulhi_at _ _ _ hj]
    simp only [show 128 / 16 = 8 by decide, Nat.mod_eq_of_lt hj, Nat.div_eq_of_lt hj, Nat.zero_mul, Nat.zero_add]
    by_cases g : j < 4
    · rw [if_pos (by omega), recast_at (w := 32) (v := 16) (q := 2) (by decide) (by decide) rfl rfl,
        show (2 * j + 1) / 2 = j by omega, show (2 * j + 1) % 2 = 1 by omega, e1 j g]
    · rw [if_neg (by omega), if_pos (by omega), recast_at (w := 32) (v := 16) (q := 2) (by decide) (by decide) rfl rfl,
        show (2 * j + 1 - 8) / 2 = j - 4 by omega, show (2 * j + 1 - 8) % 2 = 1 by omega, e2 (j - 4) (by omega),
        show 4 + (j - 4) = j by omega]
  by_cases g1 : c.null
  · rw [if_pos g1]; exact Null.mul_hi_eq sg a b
  rw [if_neg g1]
  by_cases g2 : c.sse2
  · rw [if_pos g2]
  rw [if_neg g2]
  by_cases g3 : c.neon
  · rw [if_pos g3]
    refine unz _ _ (fun j hj => ?_) (fun j hj => ?_) <;>
      rw [vmull_at _ _ _ hj, Hw.part_at _ hj, Hw.part_at _ hj] <;> simp
  rw [if_neg g3]
  by_cases g4 : c.altivec ∨ c.msa
  · rw [if_pos g4, i_mull16_eq h (N := 8) sg (Or.inl ⟨.r128, rfl, rfl⟩), Option.bind_eq_bind, Option.bind_some]
    refine unz _ _ (fun j hj => ?_) (fun j hj => ?_) <;> rw [Hw.part_at _ hj, vmull_at _ _ _ (by omega)] <;> simp
  · exfalso; clear a b hr unz; cfg_absurd h

/-! ## C03 -/

/-- C03 (`mul_lo`, 32 bits): the product modulo `2^32`, whatever the signedness. -/
theorem C03_mul_lo32 {r : Reg} (hr : c.hasInt 32 r = true) (sg : Bool) (a b : Vec 32 (r.lanes 32)) :
    ∃ res, i_mul_lo32 c r a b = some res ∧ ∀ i, res i = Spec.lane 32 (val sg (a i) * val sg (b i)) :=
  ⟨_, i_mul_lo32_eq h hr rfl a b, fun _ => mul_lane sg _ _⟩

/-- C03 (`mul_lo`, 16 bits): the product modulo `2^16`, whatever the signedness. Missing: the portable backend computes in
`int` and is undefined (`C03_mul_lo16_ub`) when the product of the operands, read as unsigned numbers, exceeds `INT_MAX`. -/
theorem C03_mul_lo16_partial {r : Reg} (hr : c.hasInt 16 r = true) (sg : Bool) (a b : Vec 16 n)
    (hp : c.null = true → ∀ i, (a i).toNat * (b i).toNat < 2 ^ 31) :
    ∃ res, i_mul_lo16 c r a b = some res ∧ ∀ i, res i = Spec.lane 16 (val sg (a i) * val sg (b i)) :=
  ⟨_, i_mul_lo16_eq h hr a b hp, fun _ => mul_lane sg _ _⟩

/-- C03 (`mul_hi`, 16 bits): the product divided by `2^16`, rounded down. -/
theorem C03_mul_hi {r : Reg} (hr : c.hasInt 16 r = true) (sg : Bool) (a b : Vec 16 (r.lanes 16)) :
    ∃ res, i_mul_hi c sg r a b = some res ∧ ∀ i, val sg (res i) = val sg (a i) * val sg (b i) / 2 ^ 16 := by
  refine ⟨_, i_mul_hi_eq h sg hr rfl a b, fun i => ?_⟩
  have e : Hw.mulhi sg a b i = Spec.lane 16 (val sg (a i) * val sg (b i) / 2 ^ 16) := by
    have := high_lane sg (Hw.mulLane sg (2 * 16) (a i) (b i)) (by decide)
    rw [val_mulLane sg (by decide) (by decide)] at this
    exact this
  rw [e]
  refine val_lane_of_range (by decide) ?_ ?_
  · cases sg
    · simp only [val, lo, Bool.false_eq_true, if_false]; positivity
    · have h1 := C.toInt_bounds16 (a i); have h2 := C.toInt_bounds16 (b i)
      simp only [val, lo, if_true]
      have : -(32768 * 65536) ≤ (a i).toInt * (b i).toInt := by nlinarith
      norm_num; omega
  · cases sg
    · have h1 := toNat_lt16 (a i); have h2 := toNat_lt16 (b i)
      simp only [val, hi, Bool.false_eq_true, if_false]
      have : ((a i).toNat : Int) * (b i).toNat < 65536 * 65536 := by nlinarith
      norm_num; omega
    · have h1 := C.toInt_bounds16 (a i); have h2 := C.toInt_bounds16 (b i)
      simp only [val, hi, if_true]
      have : (a i).toInt * (b i).toInt ≤ 32768 * 32768 := by nlinarith
      norm_num; omega

/-- C03 (`mull`, 16 bits): the exact products, for vectors of any length. -/
theorem C03_mull16 (sg : Bool) (hN : c.VLen 16 N) (a b : Vec 16 N) :
    ∃ res, i_mull16 c sg a b = some res ∧ ∀ i, val sg (res i) = val sg (a i) * val sg (b i) :=
  ⟨_, i_mull16_eq h sg hN a b, fun _ => val_mulLane sg (by decide) (by decide) _ _⟩

/-- C03 (`mull`, unsigned 32 bits): the exact products, for vectors of any length. -/
theorem C03_mull32_unsigned (hN : c.VLen 32 N) (a b : Vec 32 N) :
    ∃ res, i_mull32 c false a b = some res ∧ ∀ i, (res i).toNat = (a i).toNat * (b i).toNat := by
  refine ⟨_, i_mull32_eq h false hN (fun e => nomatch e) a b, fun i => ?_⟩
  have : ((Hw.mulLane false 64 (a i) (b i)).toNat : Int) = (a i).toNat * (b i).toNat :=
    val_mulLane false (v := 64) (by decide) (by decide) (a i) (b i)
  exact_mod_cast this

/-- C03 (`mull`, signed 32 bits): the exact products, for vectors of any length, where the function exists. Missing: it does
not exist on SSE2 to SSSE3, on AltiVec without VSX 2.07 and for 512-bit registers (`C03_mull32_signed_missing`). -/
theorem C03_mull32_signed_partial (hN : c.VLen 32 N) (hx : ¬ Mull32Missing c (c.regOf 32 N)) (a b : Vec 32 N) :
    ∃ res, i_mull32 c true a b = some res ∧ ∀ i, (res i).toInt = (a i).toInt * (b i).toInt :=
  ⟨_, i_mull32_eq h true hN (fun _ => hx) a b, fun i => val_mulLane true (by decide) (by decide) (a i) (b i)⟩

/-- C03: the low half of the exact product is `mul_lo`, the high half is `mul_hi`. -/
theorem C03_lo_hi {r : Reg} (hr : c.hasInt 16 r = true) (sg : Bool) (a b : Vec 16 (r.lanes 16))
    (hp : c.null = true → ∀ i, (a i).toNat * (b i).toNat < 2 ^ 31) :
    ∃ lo hi full, i_mul_lo16 c r a b = some lo ∧ i_mul_hi c sg r a b = some hi ∧ i_mull16 c sg a b = some full ∧
      ∀ i, full i = hi i ++ lo i := by
  refine ⟨_, _, _, i_mul_lo16_eq h hr a b hp, i_mul_hi_eq h sg hr rfl a b, i_mull16_eq h sg (lanes_vlen iw16 r hr) a b, fun i => ?_⟩
  apply BitVec.eq_of_getLsbD_eq
  intro k hk
  rw [BitVec.getLsbD_append]
  exact (mulLane_getLsbD sg (a i) (b i) hk).trans (by
    by_cases g : k < 16
    · rw [if_pos g]; simp [g, Hw.mullo]
    · rw [if_neg g]; simp [g, Hw.mulhi])

/-- Vectors of several registers: `mul_lo`, 32 bits. -/
theorem C03_mul_lo32_long {r : Reg} (hr : c.hasInt 32 r = true) (sg : Bool) {k : Nat} (a b d : Fin k → Vec 32 (r.lanes 32)) :
    ∃ res, Arr.apply2 (i_mul_lo32 c r) a b 0 d = some res ∧
      ∀ j, Arr.flat res j = Spec.lane 32 (val sg (Arr.flat a j) * val sg (Arr.flat b j)) := by
  obtain ⟨res, h1, h2⟩ := C25_apply2 (i_mul_lo32 c r) (· * ·) (fun x y => i_mul_lo32_eq h hr rfl x y) a b d
  exact ⟨res, h1, fun j => (h2 j).trans (mul_lane sg _ _)⟩

/-- Vectors of several registers: `mul_hi`. -/
theorem C03_mul_hi_long {r : Reg} (hr : c.hasInt 16 r = true) (sg : Bool) {k : Nat} (a b d : Fin k → Vec 16 (r.lanes 16)) :
    ∃ res, Arr.apply2 (i_mul_hi c sg r) a b 0 d = some res ∧
      ∀ j, Arr.flat res j = Spec.lane 16 (val sg (Arr.flat a j) * val sg (Arr.flat b j) / 2 ^ 16) := by
  obtain ⟨res, h1, h2⟩ := C25_apply2 (i_mul_hi c sg r) (fun x y => (Hw.mulLane sg (2 * 16) x y).extractLsb' 16 16)
    (fun x y => i_mul_hi_eq h sg hr rfl x y) a b d
  refine ⟨res, h1, fun j => (h2 j).trans ?_⟩
  have := high_lane sg (Hw.mulLane sg (2 * 16) (Arr.flat a j) (Arr.flat b j)) (by decide)
  rw [val_mulLane sg (by decide) (by decide)] at this
  exact this

/-- C03: signed 32-bit `mull` does not exist on these configurations. -/
theorem C03_mull32_signed_missing (hN : c.VLen 32 N) (hx : Mull32Missing c (c.regOf 32 N)) (a b : Vec 32 N) :
    i_mull32 c true a b = none := by
  obtain ⟨hr, hc⟩ := VLen.cases h iw32 hN
  unfold i_mull32 mullAll
  dsimp only
  by_cases g : N = (c.regOf 32 N).lanes 32
  · rw [dif_pos g, mull32_missing h hx]; rfl
  · rw [dif_neg g]
    obtain ⟨K, hK, e, e2⟩ : ∃ K, 2 ≤ K ∧ N = K * (c.fast 32).lanes 32 ∧ c.regOf 32 N = c.fast 32 := hc.resolve_left g
    have hL := lanes_pos iw32 (c.fast 32)
    have hK' : N / (c.regOf 32 N).lanes 32 = K := by rw [e2]; exact Nat.div_eq_of_eq_mul_left hL e
    unfold subvecFill
    split_ifs
    · rw [hK', forS_none _ (by decide) (i := 0) (fun s => ?_) 0 0 _ rfl (by omega)]
      · rfl
      · simp only [mull32_missing h hx]; rfl
    · rfl

end

/-- C03: 16-bit `mul_lo` in the portable backend is undefined as soon as one product, computed in `int`, overflows. -/
theorem C03_mul_lo16_ub {c : Cfg} (hc : c.null = true) (a b : Vec 16 n) (hp : ∃ i, 2 ^ 31 ≤ (a i).toNat * (b i).toNat) :
    i_mul_lo16 c .r128 a b = none := by
  unfold i_mul_lo16
  dsimp only
  rw [if_pos hc]
  exact Null.mul16_ub a b hp

/-- `mul_lo(-1, -1)` is undefined in the portable backend. -/
example : i_mul_lo16 Cfg.portable .r128 (Vec.splat (-1) : Vec 16 8) (Vec.splat (-1)) = none :=
  C03_mul_lo16_ub rfl _ _ ⟨0, by decide⟩

/-- 300 * 300 overflows 16 bits and is fine everywhere. -/
example : ∃ res, i_mul_lo16 Cfg.portable .r128 (Vec.splat 300 : Vec 16 8) (Vec.splat 300) = some res ∧ ∀ i, res i = 24464 := by
  obtain ⟨res, e, p⟩ := C03_mul_lo16_partial Cfg.portable_ok (r := .r128) rfl false (Vec.splat 300 : Vec 16 8) (Vec.splat 300)
    (fun _ i => by show (300#16).toNat * (300#16).toNat < 2 ^ 31; decide)
  exact ⟨res, e, fun i => (p i).trans (by show Spec.lane 16 (val false 300#16 * val false 300#16) = 24464; decide)⟩

/-- SSE2 multiplies 32-bit lanes with `pmuludq` and shuffles. -/
example (a b : Vec 32 4) : ∃ res, i_mul_lo32 Cfg.sse2Only .r128 a b = some res ∧
    ∀ i, res i = Spec.lane 32 ((a i).toInt * (b i).toInt) := C03_mul_lo32 Cfg.sse2Only_ok (r := .r128) rfl true a b

/-- `mull(int16<96>, int16<96>)` on AVX2, six registers. -/
example (a b : Vec 16 96) : ∃ res : Vec 32 96, i_mull16 Cfg.avx2Only true a b = some res ∧
    ∀ i, (res i).toInt = (a i).toInt * (b i).toInt := C03_mull16 Cfg.avx2Only_ok true (Or.inr ⟨6, by decide, rfl⟩) a b

/-- `mull(int32<4>, int32<4>)` does not exist on SSE2, and does on SSE4.1. -/
example (a b : Vec 32 4) : i_mull32 Cfg.sse2Only true a b = none :=
  C03_mull32_signed_missing Cfg.sse2Only_ok (Or.inl ⟨.r128, rfl, rfl⟩) (Or.inr ⟨rfl, Or.inl ⟨rfl, rfl⟩⟩) a b
example (a b : Vec 32 4) : ∃ res : Vec 64 4, i_mull32 Cfg.sse41Only true a b = some res ∧ ∀ i, (res i).toInt = (a i).toInt * (b i).toInt :=
  C03_mull32_signed_partial Cfg.sse41Only_ok (Or.inl ⟨.r128, rfl, rfl⟩) (by unfold Mull32Missing; decide) a b

end Simdpp
