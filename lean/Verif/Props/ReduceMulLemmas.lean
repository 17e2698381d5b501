import Verif.Model.ReduceMul
import Verif.Props.ReduceAdd
import Verif.Props.Mull

/-!
# C16 reductions: products
-/

namespace Simdpp
open Spec Sh

variable {w n N m : Nat} {c : Cfg}

def Mon.mul : Mon (BitVec 32) := ⟨(· * ·), 1, BitVec.mul_assoc, BitVec.mul_comm, fun x => BitVec.one_mul x⟩

/-- The product of the lanes, modulo `2^32`. -/
def ptot (sg : Bool) (a : Vec w n) : BitVec 32 := Mon.mul.big (fun i => E sg 32 (a.at_ i)) n

theorem ptot_self (sg : Bool) (a : Vec 32 n) : ptot sg a = Mon.mul.big a.at_ n :=
  Mon.big_congr _ fun i _ => by rw [E_trunc sg (Nat.le_refl _)]; exact BitVec.setWidth_eq _

/-- The product of the even lanes. -/
def evp (a : Vec 32 n) (m : Nat) : BitVec 32 := Mon.mul.big (fun i => a.at_ (2 * i)) m

theorem lowE64 (hn : n = 2 * m) (a : Vec 32 n) (i : Nat) : ((a.recast 64 m : Vec 64 m).at_ i).setWidth 32 = a.at_ (2 * i) := by
  have e : (a.recast 64 m : Vec 64 m).recast 32 n = a := Vec.recast_recast a (by decide) (by omega)
  have := recast_at (v := 32) (q := 2) (m := n) (by decide) (by decide) rfl (by omega) (a.recast 64 m : Vec 64 m) (2 * i)
  rw [e, Nat.mul_div_cancel_left _ (by decide), Nat.mul_mod_right, Nat.zero_mul] at this
  rw [this]
  apply BitVec.eq_of_getLsbD_eq
  intro k hk
  simp [BitVec.getLsbD_setWidth, BitVec.getLsbD_extractLsb', hk]

theorem mulE_at (hn : n = 2 * m) (a b : Vec 32 n) {i : Nat} (hi : i < m) : (mulE a b).at_ (2 * i) = a.at_ (2 * i) * b.at_ (2 * i) := by
  unfold mulE
  have hm : n / 2 = m := by omega
  rw [hm]
  have := recast_at (v := 32) (q := 2) (m := n) (by decide) (by decide) rfl (by omega)
    (Hw.mul_ep32 false (a.recast 64 m : Vec 64 m) (b.recast 64 m)) (2 * i)
  rw [Nat.mul_div_cancel_left _ (by decide), Nat.mul_mod_right, Nat.zero_mul] at this
  rw [this, Vec.at_lt _ hi, ← lowE64 hn a i, ← lowE64 hn b i, Vec.at_lt _ hi, Vec.at_lt _ hi, ← mulLane_low false (v := 64) (by decide)]
  apply BitVec.eq_of_getLsbD_eq
  intro k hk
  simp [BitVec.getLsbD_setWidth, BitVec.getLsbD_extractLsb', hk, Hw.mul_ep32]

theorem mulE_evp (hn : n = 2 * m) (a b : Vec 32 n) : evp (mulE a b) m = evp a m * evp b m :=
  (Mon.mul.big_congr fun i hi => mulE_at hn a b hi).trans (Mon.mul.big_op _ _ m)

theorem evens_eq (h : c.Ok) {r : Reg} (hr : c.hasInt 32 r = true) (hn : n = r.lanes 32) (a : Vec 32 n) :
    ∃ e, evens c r a = some e ∧ evp e (n / 2) = Mon.mul.big a.at_ n := by
  have h2 : n = 2 * (n / 2) := by subst hn; cases r <;> rfl
  have h4 : n = 4 * (n / 4) := by subst hn; cases r <;> rfl
  have e1 : moveL c r 1 a = some (gather 4 (fun j => j + 1) a (Vec.splat 0)) :=
    (moveWrap_mid (by decide) (by decide)).trans (i_move_l_eq (k := .int) h (by simp [Kind.okW, IsW]) (by decide) (by decide) hr hn a)
  refine ⟨_, bind_of e1 _, ?_⟩
  refine (Mon.mul.big_congr (g := fun i => a.at_ (2 * i) * a.at_ (2 * i + 1)) fun i hi => ?_).trans ?_
  · rw [mulE_at h2 _ _ hi, gather_at _ _ (by omega), if_pos (by omega)]
    congr 2; omega
  · refine (Mon.mul.big_pairs _ _).trans ?_
    rw [← h2]

theorem last128_eq (h : c.Ok) (a : Vec 32 4) : last128 c a = some (evp a 2) := by
  obtain ⟨t, e, p⟩ := moveL1_eq (k := .int) (s := 2) h (by simp [Kind.okW, IsW]) (by decide) (by decide) a
  refine (bind_of e _).trans ((i_extract_eq (k := .int) (r := .r128) h (by simp [Kind.okW, IsW]) rfl (by decide) (by simp [msa32s]) _).trans ?_)
  refine congrArg some ?_
  have := mulE_at (m := 2) (by rfl) a t (i := 0) (by decide)
  rw [evp, Mon.big_two]
  exact this.trans (by rw [p 0 (by decide)]; rfl)

theorem last256_eq (h : c.Ok) (a : Vec 32 8) : last256 c a = some (evp a 4) := by
  refine (last128_eq h _).trans (congrArg some ?_)
  rw [mulE_evp (by rfl), show (4 : Nat) = 2 + 2 from rfl, evp, evp, evp, Mon.big_add]
  refine congr (congrArg _ (Mon.mul.big_congr fun i hi => ?_)) (Mon.mul.big_congr fun i hi => ?_)
  · exact part_at0 _ (by omega)
  · rw [Hw.part_at _ (show 2 * i < 4 by omega)]; congr 1; omega

theorem mulTree_eq (h : c.Ok) (sg : Bool) (a : Vec 32 4) : mulTree c sg a = some (Mon.mul.big a.at_ 4) := by
  obtain ⟨r, e, p⟩ := redTree_of h (w := 32) (by simp [IsW]) Mon.mul (op := i_mul_lo32 c .r128)
    (fun a b => i_mul_lo32_eq h (r := .r128) rfl rfl a b) rfl [2, 1] 4 (by decide) (by simp [Halves]) a
  refine (bind_of e _).trans ((i_extract_eq (k := .int) (r := .r128) h (by simp [Kind.okW, IsW]) rfl (by decide) (by simp) _).trans ?_)
  exact congrArg some p

/-! ## neighbouring 16-bit lanes -/

theorem mulLane_E (sg : Bool) (x y : BitVec w) : Hw.mulLane sg 32 x y = E sg 32 x * E sg 32 y := by
  unfold Hw.mulLane; rw [extLane_E, extLane_E]

def pairsOf (sg : Bool) (m : Nat) (a : Vec 16 n) : Vec 32 m := fun i => Hw.mulLane sg 32 (a.at_ (2 * i.val)) (a.at_ (2 * i.val + 1))

theorem pairsOf_ptot (sg : Bool) (hn : n = 2 * m) (a : Vec 16 n) : Mon.mul.big (pairsOf sg m a).at_ m = ptot sg a := by
  subst hn
  refine (Mon.mul.big_congr (g := fun i => E sg 32 (a.at_ (2 * i)) * E sg 32 (a.at_ (2 * i + 1))) fun i hi => ?_).trans
    (Mon.mul.big_pairs (fun i => E sg 32 (a.at_ i)) m)
  rw [Vec.at_lt _ hi]; exact mulLane_E sg _ _

theorem recast16_bit (v : Vec 32 m) (hn : n = 2 * m) (i t : Nat) (ht : t < 2) {k : Nat} (hk : k < 16) :
    ((v.recast 16 n).at_ (2 * i + t)).getLsbD k = (v.at_ i).getLsbD (16 * t + k) := by
  have := recast_at (v := 16) (q := 2) (m := n) (by decide) (by decide) rfl (by omega) v (2 * i + t)
  rw [this, show (2 * i + t) / 2 = i by omega, show (2 * i + t) % 2 = t by omega, BitVec.getLsbD_extractLsb']
  simp [hk, Nat.mul_comm]

theorem recast32_bit (v : Vec 16 n) (hn : n = 2 * m) {i : Nat} (hi : i < m) {k : Nat} (hk : k < 32) :
    ((v.recast 32 m).at_ i).getLsbD k = (v.at_ (2 * i + k / 16)).getLsbD (k % 16) := by
  have e : (v.recast 32 m : Vec 32 m).recast 16 n = v := Vec.recast_recast v (by decide) (by omega)
  have := recast16_bit (v.recast 32 m) hn i (k / 16) (by omega) (k := k % 16) (by omega)
  rw [e] at this
  rw [this, Nat.div_add_mod]

theorem mulLane_zero (sg : Bool) (v : Nat) (x : BitVec w) : Hw.mulLane sg v x 0 = 0 := by
  unfold Hw.mulLane Hw.extLane
  have e : BitVec.signExtend v (0 : BitVec w) = 0 := by
    apply BitVec.eq_of_getLsbD_eq; intro k hk; simp [BitVec.getLsbD_signExtend]
  cases sg
  · simp
  · simp only [if_true]; rw [e]; simp

theorem mulLane_comm (sg : Bool) (v : Nat) (x y : BitVec w) : Hw.mulLane sg v x y = Hw.mulLane sg v y x := BitVec.mul_comm _ _

theorem al_at (hn : n = 2 * m) (a : Vec 16 n) (i : Nat) (hi : i < m) (t : Nat) (ht : t < 2) (al : Vec 32 m)
    (hal : ∀ i, al i = ((a.recast 32 m : Vec 32 m) i) >>> 16) :
    (al.recast 16 n).at_ (2 * i + t) = if t = 0 then a.at_ (2 * i + 1) else 0 := by
  apply BitVec.eq_of_getLsbD_eq
  intro k hk
  rw [recast16_bit _ hn i t ht hk, Vec.at_lt _ hi, hal, BitVec.getLsbD_ushiftRight, ← Vec.at_lt (a.recast 32 m : Vec 32 m) hi]
  split_ifs with e
  · rw [recast32_bit a hn hi (by omega)]
    congr 2 <;> omega
  · rw [BitVec.getLsbD_of_ge _ _ (by omega)]; simp

theorem ah_at (hn : n = 2 * m) (a : Vec 16 n) (i : Nat) (hi : i < m) (t : Nat) (ht : t < 2) (ah : Vec 32 m)
    (hah : ∀ i, ah i = ((a.recast 32 m : Vec 32 m) i) <<< 16) :
    (ah.recast 16 n).at_ (2 * i + t) = if t = 0 then 0 else a.at_ (2 * i) := by
  apply BitVec.eq_of_getLsbD_eq
  intro k hk
  rw [recast16_bit _ hn i t ht hk, Vec.at_lt _ hi, hah, BitVec.getLsbD_shiftLeft, ← Vec.at_lt (a.recast 32 m : Vec 32 m) hi]
  split_ifs with e
  · simp; omega
  · rw [recast32_bit a hn hi (by omega)]
    have e1 : t = 1 := by omega
    subst e1
    simp only [show (16 * 1 + k - 16) / 16 = 0 by omega, show (16 * 1 + k - 16) % 16 = k by omega, Nat.add_zero]
    simp; omega

theorem pair_bits (sg : Bool) (hn : n = 2 * m) (a al ah : Vec 16 n) (i : Fin m)
    (hal : ∀ t, t < 2 → al.at_ (2 * i.val + t) = if t = 0 then a.at_ (2 * i.val + 1) else 0)
    (hah : ∀ t, t < 2 → ah.at_ (2 * i.val + t) = if t = 0 then 0 else a.at_ (2 * i.val)) :
    ((Hw.mullo a al).recast 32 m : Vec 32 m) i ||| ((Hw.mulhi sg a ah).recast 32 m : Vec 32 m) i = pairsOf sg m a i := by
  apply BitVec.eq_of_getLsbD_eq
  intro k hk
  have hi := i.isLt
  rw [BitVec.getLsbD_or, ← Vec.at_fin (Vec.recast 32 m (Hw.mullo _ _)) i, ← Vec.at_fin (Vec.recast 32 m (Hw.mulhi _ _ _)) i,
    recast32_bit _ hn hi hk, recast32_bit _ hn hi hk,
    mullo_at _ _ (by omega), mulhi_at _ _ _ (by omega), hal (k / 16) (by omega), hah (k / 16) (by omega)]
  show _ = (Hw.mulLane sg (2 * 16) _ _).getLsbD k
  rw [mulLane_getLsbD sg _ _ (by omega)]
  by_cases g : k < 16
  · rw [if_pos (by omega), if_pos (by omega), if_pos g, mulLane_zero, show k / 16 = 0 by omega, Nat.mod_eq_of_lt g]
    simp
  · rw [if_neg (by omega), if_neg (by omega), if_neg g, show k / 16 = 1 by omega, show k % 16 = k - 16 by omega, mulLane_comm]
    simp

theorem prodPairs_eq (h : c.Ok) (sg : Bool) {r : Reg} (hr' : c.hasInt 32 r = true) (hn : n = r.lanes 16)
    (a : Vec 16 n) : prodPairs c sg r a = some (pairsOf sg (n / 2) a) := by
  have h2 : n = 2 * (n / 2) := by subst hn; cases r <;> rfl
  have h3 : (n / 2) % 2 = 0 := by subst hn; cases r <;> rfl
  refine (bind_of (shift_r_imm_eq h false (by simp [IsW]) hr' h3 _ (by decide)) _).trans
    ((bind_of (shift_l_imm_eq h (by simp [IsW]) hr' h3 _ (by decide)) _).trans
    ((i_bit_or_eq h (k := .int) (by simp [Kind.okW, IsW]) hr' _ _).trans (congrArg some (funext fun i => ?_))))
  exact pair_bits sg h2 a _ _ i (fun t ht => al_at h2 a i.val i.isLt t ht _ fun _ => rfl) (fun t ht => ah_at h2 a i.val i.isLt t ht _ fun _ => rfl)

theorem vmull_ptot (sg : Bool) (a : Vec 16 8) :
    Mon.mul.big (Hw.vmull sg 32 (Hw.part 4 0 a) (Hw.part 4 1 a)).at_ 4 = ptot sg a := by
  refine (Mon.mul.big_congr (g := fun i => E sg 32 (a.at_ i) * E sg 32 (a.at_ (i + 4))) fun i hi => ?_).trans
    (Mon.mul.big_half _ 4)
  rw [vmull_at _ _ _ hi, mulLane_E, part_at0 _ hi, Hw.part_at _ hi, Nat.add_comm i]

theorem altPairs_eq (h : c.Ok) (sg : Bool) (a : Vec 16 8) : altPairs c sg a = some (pairsOf sg 4 a) := by
  obtain ⟨t, e, p⟩ := moveL1_eq (k := .int) (s := 1) h (w := 16) (by simp [Kind.okW, IsW]) (by decide) (by decide) a
  refine (bind_of e _).trans (congrArg some (funext fun i => ?_))
  show Hw.mulLane sg 32 (t.at_ (2 * i.val + 0)) _ = _
  rw [p _ (by omega), mulLane_comm]; rfl

theorem msaPairs_eq (h : c.Ok) (sg : Bool) (a : Vec 16 8) :
    ∃ p, msaPairs c sg a = some p ∧ Mon.mul.big p.at_ 4 = ptot sg a := by
  refine ⟨_, (bind_of (i_ext16_32_eq h sg (Or.inl ⟨.r128, rfl, rfl⟩) a) _).trans (i_mul_lo32_eq h (r := .r128) rfl rfl _ _), ?_⟩
  refine (halves_big Mon.mul (L := 4) (extOf sg 32 a)).trans (Mon.mul.big_congr fun i hi => ?_)
  rw [extOf_at _ _ hi, extLane_E]

theorem parts_ptot (sg : Bool) {K L : Nat} (hN : N = K * L) (a : Vec w N) :
    Mon.mul.big (fun j => ptot sg (Hw.part L j a)) K = ptot sg a := by
  subst hN
  refine (Mon.mul.big_congr fun j _ => ?_).trans (Mon.mul.big_rows (fun i => E sg 32 (a.at_ i)) K L)
  exact Mon.mul.big_congr fun i hi => by rw [Hw.part_at _ hi]

theorem part0_ptot (sg : Bool) (a : Vec w n) : ptot sg (Hw.part n 0 a) = ptot sg a :=
  Mon.big_congr _ fun i hi => by rw [part_at0 _ hi]

end Simdpp
