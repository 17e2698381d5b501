import Verif.Model.Conv
import Verif.Props.Split
import Verif.Props.Shift

/-!
# C29: extension to wider lanes
-/

namespace Simdpp
open Spec Sh

variable {w v n N : Nat}

/-! ## Registers laid one after another -/

theorem catM_of {m : Nat} (hm : 0 < m) {f : Nat → Option (Vec v m)} {T : Vec v N}
    (h : ∀ p, p * m < N → ∃ x, f p = some x ∧ ∀ j, j < m → p * m + j < N → x.at_ j = T.at_ (p * m + j)) :
    catM m f = some T := by
  refine lanesM_eq_some.2 fun i => ?_
  have hi := i.isLt
  have hd := Nat.div_add_mod' i.val m
  obtain ⟨x, e, p⟩ := h (i.val / m) (by omega)
  have := p (i.val % m) (Nat.mod_lt _ hm) (by omega)
  rw [hd, Vec.at_lt _ hi] at this
  rw [e]
  exact congrArg some this

/-- Every lane extended. -/
def extOf (sg : Bool) (v : Nat) (a : Vec w n) : Vec v n := fun i => Hw.extLane sg v (a i)

theorem extOf_at (sg : Bool) (a : Vec w n) {i : Nat} (hi : i < n) :
    (extOf sg v a).at_ i = Hw.extLane sg v (a.at_ i) := by rw [Vec.at_lt _ hi, Vec.at_lt _ hi]; rfl

theorem cvt_at {m : Nat} (sg : Bool) (a : Vec w n) {i : Nat} (hi : i < m) :
    (Hw.cvt sg v a : Vec v m).at_ i = Hw.extLane sg v (a.at_ i) := by rw [Vec.at_lt _ hi]; rfl

theorem trunc_at {m : Nat} (a : Vec w n) {i : Nat} (hi : i < m) :
    (Hw.trunc v a : Vec v m).at_ i = (a.at_ i).setWidth v := by rw [Vec.at_lt _ hi]; rfl

theorem cvt_self (sg : Bool) (a : Vec w n) : (Hw.cvt sg v a : Vec v n) = extOf sg v a := by
  refine ext_at fun i hi => ?_
  rw [cvt_at _ _ hi, extOf_at _ _ hi]

theorem ofInt_wrap (s : Bool) (v : Nat) (x : Int) : BitVec.ofInt v (C.wrap ⟨s, v⟩ x) = BitVec.ofInt v x := by
  unfold C.wrap
  apply BitVec.eq_of_toInt_eq
  rw [BitVec.toInt_ofInt, BitVec.toInt_ofInt]
  dsimp only
  have h2 : ((2 : Int) ^ v) = ((2 ^ v : Nat) : Int) := by push_cast; rfl
  cases s
  · simp only [Bool.false_eq_true, if_false, h2]
    exact Int.emod_bmod _ _
  · simp only [if_true]
    exact Int.bmod_bmod

theorem Null.conv_eq (sg : Bool) (a : Vec w n) : Null.conv sg v a = extOf sg v a := by
  funext i
  unfold Null.conv extOf C.toLane C.cast
  dsimp only
  rw [ofInt_wrap]
  unfold C.lane Hw.extLane
  cases sg
  · simp only [Bool.false_eq_true, if_false]
    apply BitVec.eq_of_toNat_eq
    simp [BitVec.toNat_ofInt]
  · simp only [if_true]; rfl

/-! ## Pieces of the sequences -/

variable {c : Cfg} (h : c.Ok)
include h

theorem cvtMoves_eq (sg : Bool) (hw : IsW w) {m K : Nat} {ss : List Nat} (hn : n = 128 / w) (hK : n = K * m)
    (hs : ∀ p, p < K → ss.getD p 0 = p * m) (a : Vec w n) {p : Nat} (hp : p < K) :
    ∃ x, cvtMoves c sg v m ss a p = some x ∧ ∀ j, j < m → x.at_ j = Hw.extLane sg v (a.at_ (p * m + j)) := by
  unfold cvtMoves
  dsimp only
  rw [hs p hp]
  by_cases h0 : p * m = 0
  · rw [if_pos h0, h0]
    exact ⟨_, rfl, fun j hj => by rw [cvt_at _ _ hj, Nat.zero_add]⟩
  · rw [if_neg h0]
    have hle : p * m + m ≤ n := by
      rw [hK]; calc p * m + m = (p + 1) * m := by ring
        _ ≤ K * m := Nat.mul_le_mul_right _ hp
    have hm : 0 < m := by rcases Nat.eq_zero_or_pos m with e | e; · subst e; simp at h0
                          · exact e
    obtain ⟨b, e, q⟩ := moveL1_eq h (k := .int) (s := p * m) hw (by omega) hn a
    rw [e]
    exact ⟨_, rfl, fun j hj => by rw [cvt_at _ _ hj, q j (by omega), Nat.add_comm]⟩

theorem catM_moves (sg : Bool) (hw : IsW w) {m : Nat} (K : Nat) {ss : List Nat} (hm : 0 < m) (hn : n = 128 / w) (hK : n = K * m)
    (hs : ∀ p, p < K → ss.getD p 0 = p * m) (a : Vec w n) :
    catM m (cvtMoves c sg v m ss a) = some (extOf sg v a) := by
  refine catM_of hm fun p hp => ?_
  obtain ⟨x, e, q⟩ := cvtMoves_eq (v := v) h sg hw hn hK hs a (p := p) (Nat.lt_of_mul_lt_mul_right (by rw [← hK]; exact hp))
  exact ⟨x, e, fun j hj hl => by rw [q j hj, extOf_at _ _ hl]⟩

omit h in
theorem catM_parts (sg : Bool) {m : Nat} (hm : 0 < m) (a : Vec w n) :
    catM m (fun p => some (Hw.cvt sg v (Hw.part m p a))) = some (extOf sg v a) :=
  catM_of hm fun p _ => ⟨_, rfl, fun j hj hl => by
    rw [cvt_at _ _ hj, extOf_at _ _ hl, Hw.part_at _ hj]⟩

/-- Moves inside parts: register `p` of the result comes from part `p / K`. -/
theorem catM_parts_moves (sg : Bool) (hw : IsW w) {m l : Nat} (K : Nat) {ss : List Nat} (hm : 0 < m) (hK0 : 0 < K)
    (hl : l = 128 / w) (hK : l = K * m) (hs : ∀ p, p < K → ss.getD p 0 = p * m) (a : Vec w n) :
    catM m (fun p => cvtMoves c sg v m ss (Hw.part l (p / K) a) (p % K)) = some (extOf sg v a) := by
  refine catM_of hm fun p hp => ?_
  obtain ⟨x, e, q⟩ := cvtMoves_eq (v := v) h sg hw hl hK hs (Hw.part l (p / K) a) (p := p % K) (Nat.mod_lt _ hK0)
  refine ⟨x, e, fun j hj hlt => ?_⟩
  have h1 : p % K * m + j < l := by
    have : (p % K + 1) * m ≤ K * m := Nat.mul_le_mul_right _ (Nat.mod_lt _ hK0)
    rw [Nat.add_mul, Nat.one_mul] at this
    omega
  rw [q j hj, extOf_at _ _ hlt, Hw.part_at _ h1]
  congr 2
  rw [hK]
  calc p / K * (K * m) + (p % K * m + j) = (p / K * K + p % K) * m + j := by ring
    _ = p * m + j := by rw [Nat.div_add_mod']

/-- Interleaved lanes, joined. -/
theorem zipPair_eq (hw : IsW w) (h64 : w ≠ 64) {m : Nat} (hn : n = 128 / w) (hm : m = 64 / w) (a z : Vec w n) {p : Nat} (hp : p < 2) :
    ∃ x, zipPair c m a z p = some x ∧ ∀ j, j < m → ∀ k, k < 2 * w → (x.at_ j).getLsbD k =
      if k < w then (a.at_ (p * m + j)).getLsbD k else (z.at_ (p * m + j)).getLsbD (k - w) := by
  have hL : 128 / w = 2 * m := by subst hm; rcases hw with e | e | e | e <;> subst e <;> simp_all
  have hw0 := isW_pos hw
  have hz1 := i_zip_lo_eq h (k := .int) (r := .r128) (n := n) hw rfl hn a z
  have hz2 := i_zip_hi_eq h (k := .int) (r := .r128) (n := n) hw rfl hn a z
  have key : ∀ f : Nat → Nat, (∀ j, j < m → f (2 * j) = p * m + j ∧ f (2 * j + 1) = 2 * m + (p * m + j)) →
      ∀ j, j < m → ∀ k, k < 2 * w → (((gather (128 / w) f a z).recast (2 * w) m).at_ j).getLsbD k =
      if k < w then (a.at_ (p * m + j)).getLsbD k else (z.at_ (p * m + j)).getLsbD (k - w) := by
    intro f hf j hj k hk
    have hpm : p * m ≤ m := by
      have : p * m ≤ 1 * m := Nat.mul_le_mul_right _ (by omega)
      omega
    have hlt : p * m + j < 2 * m := by omega
    rw [Vec.at_lt _ hj, Vec.recast_getLsbD]
    simp only [hk, decide_true, Bool.true_and]
    unfold Vec.bit
    have e1 : (j * (2 * w) + k) = k + (2 * j) * w := by ring
    by_cases hkw : k < w
    · rw [if_pos hkw, e1, Nat.add_mul_div_right _ _ hw0, Nat.add_mul_mod_self_right, Nat.div_eq_of_lt hkw, Nat.mod_eq_of_lt hkw,
        Nat.zero_add]
      have hi : 2 * j < n := by omega
      rw [gather_at _ _ hi, hL, Nat.mod_eq_of_lt (by omega), Nat.div_eq_of_lt (by omega), (hf j hj).1, if_pos hlt]
      simp
    · obtain ⟨d, rfl⟩ : ∃ d, k = w + d := ⟨k - w, by omega⟩
      have hd : d < w := by omega
      rw [if_neg hkw, show j * (2 * w) + (w + d) = d + (2 * j + 1) * w by ring, Nat.add_mul_div_right _ _ hw0,
        Nat.add_mul_mod_self_right, Nat.div_eq_of_lt hd, Nat.mod_eq_of_lt hd, Nat.zero_add]
      have hi : 2 * j + 1 < n := by omega
      rw [gather_at _ _ hi, hL, Nat.mod_eq_of_lt (by omega), Nat.div_eq_of_lt (by omega), (hf j hj).2, if_neg (by omega),
        if_pos (by omega)]
      simp
  unfold zipPair
  rcases (by omega : p = 0 ∨ p = 1) with e | e <;> subst e
  · rw [if_pos rfl, hz1]
    refine ⟨_, rfl, key _ fun j hj => ?_⟩
    unfold zipI
    constructor
    · rw [if_pos (by omega)]; omega
    · rw [if_neg (by omega), hL]; omega
  · rw [if_neg (by decide), hz2]
    refine ⟨_, rfl, key _ fun j hj => ?_⟩
    unfold zipH
    constructor
    · rw [if_pos (by omega), hL]; omega
    · rw [if_neg (by omega), hL]; omega

/-- Zero extension by interleaving with zeros. -/
theorem zip_zero_ext (hw : IsW w) (h64 : w ≠ 64) {m : Nat} (hn : n = 128 / w) (hm : m = 64 / w) (a : Vec w n) :
    catM m (zipPair c m a (Vec.splat 0)) = some (extOf false (2 * w) a) := by
  have hL : 128 / w = 2 * m := by subst hm; rcases hw with e | e | e | e <;> subst e <;> simp_all
  have hm0 : 0 < m := by subst hm; rcases hw with e | e | e | e <;> subst e <;> simp_all
  refine catM_of hm0 fun p hp => ?_
  obtain ⟨x, e, q⟩ := zipPair_eq h hw h64 hn hm a (Vec.splat 0) (p := p)
    (Nat.lt_of_mul_lt_mul_right (a := m) (by omega))
  refine ⟨x, e, fun j hj hl => ?_⟩
  rw [extOf_at _ _ hl]
  refine BitVec.eq_of_getLsbD_eq fun k hk => ?_
  rw [q j hj k hk]
  unfold Hw.extLane
  simp only [Bool.false_eq_true, if_false, BitVec.getLsbD_setWidth, hk, decide_true, Bool.true_and]
  by_cases g : k < w
  · rw [if_pos g]
  · rw [if_neg g, at_zero, BitVec.getLsbD_of_ge _ _ (by omega : w ≤ k)]; simp

/-- Sign extension by interleaving with copies of the sign. -/
theorem zip_sign_ext (hw : IsW w) (h64 : w ≠ 64) {m : Nat} (hn : n = 128 / w) (hm : m = 64 / w) (a : Vec w n) {s : Nat}
    (hs : s = w - 1) :
    (shift_r_imm c true .r128 s a).bind (fun sign => catM m (zipPair c m a sign)) = some (extOf true (2 * w) a) := by
  have hL : 128 / w = 2 * m := by subst hm; rcases hw with e | e | e | e <;> subst e <;> simp_all
  have hm0 : 0 < m := by subst hm; rcases hw with e | e | e | e <;> subst e <;> simp_all
  have hw0 := isW_pos hw
  rw [shift_r_imm_eq h true hw rfl (by omega) a (by omega : s < w), Option.bind_some]
  refine catM_of hm0 fun p hp => ?_
  obtain ⟨x, e, q⟩ := zipPair_eq h hw h64 hn hm a (fun i => bshr true (a i) s) (p := p)
    (Nat.lt_of_mul_lt_mul_right (a := m) (by omega))
  refine ⟨x, e, fun j hj hl => ?_⟩
  rw [extOf_at _ _ hl]
  refine BitVec.eq_of_getLsbD_eq fun k hk => ?_
  rw [q j hj k hk]
  unfold Hw.extLane
  simp only [if_true, BitVec.getLsbD_signExtend, hk, decide_true, Bool.true_and]
  by_cases g : k < w
  · rw [if_pos g, if_pos g]
  · rw [if_neg g, if_neg g, Vec.at_lt _ hl, Vec.at_lt _ hl]
    unfold bshr
    simp only [if_true, BitVec.getLsbD_sshiftRight]
    have e1 : ¬ w ≤ k - w := by omega
    simp only [e1, decide_false, Bool.not_false, Bool.true_and]
    by_cases g2 : s + (k - w) < w
    · rw [if_pos g2]
      have : s + (k - w) = w - 1 := by omega
      rw [this, BitVec.msb_eq_getLsbD_last]
    · rw [if_neg g2]

/-- Sign extension by moving the lane into the high half and shifting it back. -/
theorem zip_high_ext (a : Vec 8 16) :
    catM 8 (fun p => (zipPair c 8 (Vec.splat 0) a p).bind (shift_r_imm c true .r128 8)) = some (extOf true 16 a) := by
  refine catM_of (by decide) fun p hp => ?_
  obtain ⟨x, e, q⟩ := zipPair_eq h (w := 8) (m := 8) isW8 (by decide) rfl rfl (Vec.splat 0) a (p := p) (by omega)
  rw [e, Option.bind_some, shift_r_imm_eq h true iw16 rfl (by decide) x (by decide)]
  refine ⟨_, rfl, fun j hj hl => ?_⟩
  rw [extOf_at _ _ hl]
  have q := q j hj
  have hx : (x.at_ j) = x ⟨j, hj⟩ := Vec.at_lt _ hj
  rw [Vec.at_lt _ hj]
  refine BitVec.eq_of_getLsbD_eq fun k hk => ?_
  rw [hx] at q
  unfold Hw.extLane bshr
  simp only [if_true, BitVec.getLsbD_signExtend, hk, decide_true, Bool.true_and, BitVec.getLsbD_sshiftRight]
  have e1 : ¬ 2 * 8 ≤ k := by omega
  simp only [e1, decide_false, Bool.not_false, Bool.true_and]
  by_cases g : k < 8
  · rw [if_pos g, if_pos (by omega), q (8 + k) (by omega), if_neg (by omega)]
    congr 1; omega
  · rw [if_neg g, if_neg (by omega), BitVec.msb_eq_getLsbD_last, q _ (by decide), if_neg (by decide), BitVec.msb_eq_getLsbD_last]

omit h in
theorem halves_ext (sg : Bool) {m : Nat} (hm : 0 < m) (hn : n = 2 * m) (a : Vec w n) :
    catM m (fun p => some (Hw.cvt sg v (Hw.half (p = 1) a))) = some (extOf sg v a) := by
  have h2 : n / 2 = m := by omega
  refine catM_of hm fun p hp => ⟨_, rfl, fun j hj hl => ?_⟩
  rw [cvt_at _ _ hj, extOf_at _ _ hl]
  unfold Hw.half
  rw [Hw.part_at _ (by omega), h2]
  have hp2 : p < 2 := Nat.lt_of_mul_lt_mul_right (a := m) (by omega)
  rcases (by omega : p = 0 ∨ p = 1) with e | e <;> subst e <;> rfl

/-! ## One-step extensions of a register -/

theorem ext8_16_eq (sg : Bool) {r : Reg} (hr : c.hasInt 8 r = true) (hn : n = r.lanes 8) (a : Vec 8 n) :
    ext8_16 c sg r a = some (extOf sg 16 a) := by
  subst hn
  unfold ext8_16
  cases r
  · by_cases g1 : c.null
    · rw [if_pos g1, Null.conv_eq]
    rw [if_neg g1]
    by_cases g2 : c.avx2
    · rw [if_pos g2, cvt_self]
    rw [if_neg g2]
    by_cases g3 : c.sse41
    · rw [if_pos g3]; exact catM_moves h sg isW8 2 (by decide) rfl rfl (by decide) a
    rw [if_neg g3]
    cases sg
    · rw [if_pos (by decide)]
      by_cases g4 : c.sse2 ∨ c.altivec ∨ c.msa
      · rw [if_pos g4]; have e := zip_zero_ext h (w := 8) (n := Reg.r128.lanes 8) (m := 8) isW8 (by decide) rfl rfl a
        exact e
      rw [if_neg g4]
      by_cases g5 : c.neon
      · rw [if_pos g5]; have e := halves_ext false (w := 8) (v := 16) (n := Reg.r128.lanes 8) (m := 8) (by decide) rfl a
        exact e
      · exfalso; cfg_absurd h
    · rw [if_neg (by decide)]
      by_cases g4 : c.sse2
      · rw [if_pos g4]; exact zip_high_ext h a
      rw [if_neg g4]
      by_cases g5 : c.neon
      · rw [if_pos g5]; have e := halves_ext true (w := 8) (v := 16) (n := Reg.r128.lanes 8) (m := 8) (by decide) rfl a
        exact e
      rw [if_neg g5]
      by_cases g6 : c.msa
      · rw [if_pos g6]; have e := zip_sign_ext h (w := 8) (n := Reg.r128.lanes 8) (m := 8) isW8 (by decide) rfl rfl a rfl
        exact e
      rw [if_neg g6]
      by_cases g7 : c.altivec
      · rw [if_pos g7]; have e := halves_ext true (w := 8) (v := 16) (n := Reg.r128.lanes 8) (m := 8) (by decide) rfl a
        exact e
      · exfalso; cfg_absurd h
  · refine (if_pos hr).trans ?_
    by_cases g : c.avx512bw
    · rw [if_pos g, cvt_self]
    · rw [if_neg g]; exact catM_parts sg (by decide) a
  · refine (if_pos hr).trans (catM_parts sg (by decide) a)

theorem ext16_32_eq (sg : Bool) {r : Reg} (hr : c.hasInt 16 r = true) (hn : n = r.lanes 16) (a : Vec 16 n) :
    ext16_32 c sg r a = some (extOf sg 32 a) := by
  subst hn
  unfold ext16_32
  cases r
  · by_cases g1 : c.null
    · rw [if_pos g1, Null.conv_eq]
    rw [if_neg g1]
    by_cases g2 : c.avx2
    · rw [if_pos g2, cvt_self]
    rw [if_neg g2]
    by_cases g3 : c.sse41
    · rw [if_pos g3]; exact catM_moves h sg iw16 2 (by decide) rfl rfl (by decide) a
    rw [if_neg g3]
    cases sg
    · rw [if_pos (by decide)]
      by_cases g4 : c.sse2 ∨ c.msa ∨ c.altivec
      · rw [if_pos g4]; have e := zip_zero_ext h (w := 16) (n := Reg.r128.lanes 16) (m := 4) iw16 (by decide) rfl rfl a
        exact e
      rw [if_neg g4]
      by_cases g5 : c.neon
      · rw [if_pos g5]; have e := halves_ext false (w := 16) (v := 32) (n := Reg.r128.lanes 16) (m := 4) (by decide) rfl a
        exact e
      · exfalso; cfg_absurd h
    · rw [if_neg (by decide)]
      by_cases g4 : c.sse2 ∨ c.msa
      · rw [if_pos g4]; have e := zip_sign_ext h (w := 16) (n := Reg.r128.lanes 16) (m := 4) iw16 (by decide) rfl rfl a rfl
        exact e
      rw [if_neg g4]
      by_cases g5 : c.neon
      · rw [if_pos g5]; have e := halves_ext true (w := 16) (v := 32) (n := Reg.r128.lanes 16) (m := 4) (by decide) rfl a
        exact e
      rw [if_neg g5]
      by_cases g7 : c.altivec
      · rw [if_pos g7]; have e := halves_ext true (w := 16) (v := 32) (n := Reg.r128.lanes 16) (m := 4) (by decide) rfl a
        exact e
      · exfalso; cfg_absurd h
  · refine (if_pos hr).trans ?_
    by_cases g : c.avx512f
    · rw [if_pos g, cvt_self]
    · rw [if_neg g]; exact catM_parts sg (by decide) a
  · refine (if_pos hr).trans (catM_parts sg (by decide) a)

theorem ext32_64_eq (sg : Bool) {r : Reg} (hr : c.hasInt 32 r = true) (hn : n = r.lanes 32) (a : Vec 32 n) :
    ext32_64 c sg r a = some (extOf sg 64 a) := by
  subst hn
  unfold ext32_64
  cases r
  · by_cases g1 : c.null
    · rw [if_pos g1, Null.conv_eq]
    rw [if_neg g1]
    by_cases g2 : c.avx2
    · rw [if_pos g2, cvt_self]
    rw [if_neg g2]
    by_cases g3 : c.sse41
    · rw [if_pos g3]; exact catM_moves h sg iw32 2 (by decide) rfl rfl (by decide) a
    rw [if_neg g3]
    by_cases g4 : c.sse2 ∨ c.msa ∨ c.vsx207
    · rw [if_pos g4]
      cases sg
      · rw [if_pos (by decide)]; have e := zip_zero_ext h (w := 32) (n := Reg.r128.lanes 32) (m := 2) iw32 (by decide) rfl rfl a
        exact e
      · rw [if_neg (by decide)]; have e := zip_sign_ext h (w := 32) (n := Reg.r128.lanes 32) (m := 2) iw32 (by decide) rfl rfl a rfl
        exact e
    rw [if_neg g4]
    by_cases g5 : c.neon
    · rw [if_pos g5]; have e := halves_ext sg (w := 32) (v := 64) (n := Reg.r128.lanes 32) (m := 2) (by decide) rfl a
      exact e
    rw [if_neg g5]
    by_cases g7 : c.altivec
    · rw [if_pos g7, Null.conv_eq]
    · exfalso; cfg_absurd h
  · exact (if_pos hr).trans (catM_parts sg (by decide) a)
  · exact (if_pos hr).trans (catM_parts sg (by decide) a)

end Simdpp
