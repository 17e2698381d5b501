import Verif.Model.Lanes
import Verif.Props.Move
import Verif.Spec.Int

/-!
# C23: extract, insert, splat
-/

namespace Simdpp
open Spec Sh

variable {w n : Nat}

/-! ## Helpers -/

/-- `a` with lane `i` replaced by `x`. -/
def upd (a : Vec w n) (i : Nat) (x : BitVec w) : Vec w n := fun j => if j.val = i then x else a j

theorem upd_at (a : Vec w n) {i j : Nat} (x : BitVec w) (hj : j < n) :
    (upd a i x).at_ j = if j = i then x else a.at_ j := by
  rw [Vec.at_lt _ hj, Vec.at_lt _ hj]; rfl

theorem Hw.extr_lt (a : Vec w n) {i : Nat} (hi : i < n) : Hw.extr a i = some (a.at_ i) := if_pos hi
theorem Hw.ins_lt (a : Vec w n) {i : Nat} (hi : i < n) (x : BitVec w) : Hw.ins a i x = some (upd a i x) := if_pos hi
theorem Hw.part_at {L q : Nat} (a : Vec w n) {j : Nat} (hj : j < L) : (Hw.part L q a).at_ j = a.at_ (q * L + j) := by
  rw [Vec.at_lt _ hj]; rfl

theorem join_halves {m : Nat} (a : Vec 64 m) (i : Nat) :
    join32 ((a.recast 32 (m * 2)).at_ (i * 2)) ((a.recast 32 (m * 2)).at_ (i * 2 + 1)) = a.at_ i := by
  rw [recast_at (by decide) (q := 2) (by decide) rfl rfl, recast_at (by decide) (q := 2) (by decide) rfl rfl,
    Nat.mul_div_cancel _ (by decide), show (i * 2 + 1) / 2 = i by omega, Nat.mul_mod_left,
    show (i * 2 + 1) % 2 = 1 by omega]
  unfold join32
  apply BitVec.eq_of_getLsbD_eq
  intro k hk
  simp only [BitVec.getLsbD_or, BitVec.getLsbD_setWidth, BitVec.getLsbD_extractLsb', BitVec.getLsbD_shiftLeft, hk,
    decide_true, Bool.true_and]
  by_cases h : k < 32
  · simp [h]
  · have h1 : k - 32 < 32 := by omega
    have h2 : k - 32 < 64 := by omega
    simp [h, h1, h2, show 32 + (k - 32) = k by omega]

/-- Replacing both halves of a 64-bit (or 32-bit) lane replaces the lane. -/
theorem upd_halves {v m : Nat} (hv : 0 < v) (a : Vec (2 * v) m) {i : Nat} (x : BitVec (2 * v)) :
    (upd (upd (a.recast v (m * 2)) (i * 2) (x.setWidth v)) (i * 2 + 1) ((x >>> v).setWidth v)).recast (2 * v) m =
      upd a i x := by
  have e : ∀ y : Vec (2 * v) m, y = (y.recast v (m * 2)).recast (2 * v) m := fun y =>
    (Vec.recast_recast y hv (by ring)).symm
  rw [e (upd a i x)]
  congr 1
  apply ext_at
  intro t ht
  rw [upd_at _ _ ht, upd_at _ _ ht, recast_at hv (q := 2) (by decide) rfl rfl, recast_at hv (q := 2) (by decide) rfl rfl,
    upd_at _ _ (by omega)]
  by_cases h1 : t = i * 2 + 1
  · rw [if_pos h1, if_pos (by omega), show t % 2 = 1 by omega]
    apply BitVec.eq_of_getLsbD_eq
    intro k hk
    simp [BitVec.getLsbD_extractLsb', hk]
  · rw [if_neg h1]
    by_cases h2 : t = i * 2
    · rw [if_pos h2, if_pos (by omega), show t % 2 = 0 by omega]
      apply BitVec.eq_of_getLsbD_eq
      intro k hk
      simp [BitVec.getLsbD_extractLsb', hk]
    · rw [if_neg h2, if_neg (by omega)]

section
variable {c : Cfg} (h : c.Ok) {r : Reg} {k : Kind}
include h

/-- `move*_l<s>` on one 128-bit register. -/
theorem moveL1_eq {s : Nat} (hw : k.okW w) (hs : s < 128 / w) (hn : n = 128 / w) (a : Vec w n) :
    ∃ b, moveL1 c k s a = some b ∧ ∀ j, j + s < 128 / w → b.at_ j = a.at_ (j + s) := by
  unfold moveL1
  by_cases h0 : s = 0
  · subst h0
    refine ⟨a, ?_, fun j _ => rfl⟩
    unfold moveWrap
    rw [if_neg (by omega), if_pos rfl]
  · rw [moveWrap_mid (by omega) hs]
    refine ⟨_, i_move_l_eq h hw (by omega) hs (r := .r128) (by cases k <;> rfl) hn a, fun j hj => ?_⟩
    rw [gather_at _ _ (by omega), Nat.mod_eq_of_lt (by omega), if_pos hj, Nat.div_eq_of_lt (by omega), Nat.zero_mul,
      Nat.zero_add]

theorem moveL1_low {s : Nat} (hw : k.okW w) (hs : s < 128 / w) (hn : n = 128 / w) (a : Vec w n) :
    (moveL1 c k s a).map Hw.low = some (a.at_ s) := by
  obtain ⟨b, e, p⟩ := moveL1_eq h hw hs hn a
  rw [e]
  refine congrArg some ?_
  have := p 0 (by omega)
  rw [Nat.zero_add] at this
  exact this

/-! ## extract -/

theorem i_extract8_eq {id : Nat} (hi : id < 16) (a : Vec 8 16) : i_extract8 c id a = some (a.at_ id) := by
  have hx := Hw.extr_lt a hi
  have hn := rd_lt a hi
  have hs : (Hw.extr (a.recast 16 (16 / 2)) (id / 2)).map (fun x =>
      ((x.setWidth 32).ushiftRight (if id % 2 = 1 then 8 else 0)).setWidth 8) = some (a.at_ id) := by
    rw [Hw.extr_lt _ (by omega)]
    refine congrArg some ?_
    have e := halves (r := .r128) (w := 8) (Or.inl rfl) rfl a (id / 2) (e := id % 2) (by omega)
    rw [Nat.div_add_mod] at e
    refine Eq.trans ?_ e.symm
    show BitVec.setWidth 8 ((((a.recast 16 8).at_ (id / 2)).setWidth 32).ushiftRight (if id % 2 = 1 then 8 else 0)) =
      BitVec.extractLsb' (id % 2 * 8) 8 ((a.recast 16 8).at_ (id / 2))
    apply BitVec.eq_of_getLsbD_eq
    intro k hk
    rcases Nat.mod_two_eq_zero_or_one id with g | g
    · rw [g]
      simp only [BitVec.getLsbD_setWidth, hk, decide_true, Bool.true_and, BitVec.getLsbD_extractLsb', Nat.zero_mul, Nat.zero_add]
      simp [show k < 32 by omega, BitVec.getLsbD_setWidth]
    · rw [g, if_pos rfl]
      simp only [BitVec.getLsbD_setWidth, hk, decide_true, Bool.true_and, BitVec.getLsbD_extractLsb']
      have e2 : ∀ x : BitVec 32, x.ushiftRight 8 = x >>> 8 := fun _ => rfl
      rw [e2, BitVec.getLsbD_ushiftRight, BitVec.getLsbD_setWidth]
      simp [show 8 + k < 32 by omega]
  unfold i_extract8
  by_cases g1 : c.null = true
  · rw [if_pos g1, hn]
  rw [if_neg g1]
  by_cases g2 : c.sse41 = true
  · rw [if_pos g2, hx]
  rw [if_neg g2]
  by_cases g3 : c.sse2 = true
  · rw [if_pos g3]; exact hs
  rw [if_neg g3]
  by_cases g4 : c.neon = true ∨ c.altivec = true ∨ c.msa = true
  · rw [if_pos g4, hx]
  clear hx hn hs
  cfg_absurd h

theorem i_extract16_eq {id : Nat} (hi : id < 8) (a : Vec 16 8) : i_extract16 c id a = some (a.at_ id) := by
  unfold i_extract16
  rw [rd_lt a hi, Hw.extr_lt a hi]
  split_ifs <;> first | rfl | (cfg_absurd h)

theorem i_extract32_eq {id : Nat} (hi : id < 4) (a : Vec 32 4) : i_extract32 c id a = some (a.at_ id) := by
  unfold i_extract32
  rw [rd_lt a hi, Hw.extr_lt a hi, moveL1_low h (k := .int) iw32 hi rfl]
  split_ifs <;> first | rfl | (cfg_absurd h)

/-- Where `extract` of a signed 64-bit lane is computed with sign-extended halves. -/
def msa32s (c : Cfg) (sg : Bool) : Prop := c.msa = true ∧ c.bits64 = false ∧ sg = true

theorem i_extract64_eq {sg : Bool} {id : Nat} (hi : id < 2) (hm : ¬ msa32s c sg) (a : Vec 64 2) :
    i_extract64 c sg id a = some (a.at_ id) := by
  have hj := join_halves a id
  have l1 := i_extract32_eq h (id := id * 2) (by omega) (a.recast 32 4)
  have l2 := i_extract32_eq h (id := id * 2 + 1) (by omega) (a.recast 32 4)
  have h41 : (do
      let lo ← i_extract32 c (id * 2) (a.recast 32 4)
      let hi ← i_extract32 c (id * 2 + 1) (a.recast 32 4)
      some (join32 lo hi)) = some (a.at_ id) := by
    rw [l1, l2]; exact congrArg some hj
  have h2 : (do
      let t ← moveL1 c .int (id * 2) (a.recast 32 4 : Vec 32 4)
      let lo ← i_extract32 c 0 t
      let u ← moveL1 c .int 1 t
      let hi ← i_extract32 c 0 u
      some (join32 lo hi)) = some (a.at_ id) := by
    obtain ⟨t, e1, p1⟩ := moveL1_eq h (k := .int) iw32 (s := id * 2) (by omega) rfl (a.recast 32 4 : Vec 32 4)
    obtain ⟨u, e2, p2⟩ := moveL1_eq h (k := .int) iw32 (s := 1) (by omega) rfl t
    rw [e1]
    simp only [Option.bind_eq_bind, Option.bind_some]
    rw [i_extract32_eq h (by omega) t, e2]
    simp only [Option.bind_some]
    rw [i_extract32_eq h (by omega) u]
    refine congrArg some (Eq.trans ?_ hj)
    rw [p1 0 (by omega), p2 0 (by omega), p1 1 (by omega), Nat.zero_add, Nat.add_comm 1]
  have h3 : (moveNonzero c id a).map Hw.low = some (a.at_ id) := by
    unfold moveNonzero
    by_cases g : id ≠ 0
    · rw [if_pos g]; exact moveL1_low h (k := .int) iw64 hi rfl a
    · rw [if_neg g]
      have : id = 0 := by omega
      rw [this]; rfl
  have h4 : (do
      let lo ← Hw.extr (a.recast 32 4 : Vec 32 4) (id * 2)
      let hi ← Hw.extr (a.recast 32 4 : Vec 32 4) (id * 2 + 1)
      if sg then joinSigned lo hi else some (join32 lo hi)) = (if sg then
        joinSigned ((a.recast 32 4 : Vec 32 4).at_ (id * 2)) ((a.recast 32 4 : Vec 32 4).at_ (id * 2 + 1))
        else some (a.at_ id)) := by
    rw [Hw.extr_lt _ (by omega), Hw.extr_lt _ (by omega)]
    simp only [Option.bind_eq_bind, Option.bind_some]
    congr 1
    exact congrArg some hj
  unfold i_extract64
  rw [h41, h2, h3, h4, rd_lt a hi, Hw.extr_lt a hi]
  clear h41 h2 h3 h4 l1 l2 hj
  by_cases g1 : c.null = true
  · rw [if_pos g1]
  rw [if_neg g1]
  by_cases g2 : c.sse41 = true
  · rw [if_pos g2, ite_self]
  rw [if_neg g2]
  by_cases g3 : c.sse2 = true
  · rw [if_pos g3, ite_self]
  rw [if_neg g3]
  by_cases g4 : c.neon = true ∨ c.altivec = true
  · rw [if_pos g4]
  rw [if_neg g4]
  by_cases g5 : c.msa = true
  · rw [if_pos g5]
    by_cases g6 : c.bits64 = true
    · rw [if_pos g6]
    · rw [if_neg g6]
      cases sg
      · rfl
      · exact absurd ⟨g5, by simpa using g6, rfl⟩ hm
  cfg_absurd h

theorem mm4_imm2 {s j : Nat} (hs : s < 4) (hj : j < 4) : Hw.imm2 (mmShuffle s s s s) j = s := by
  interval_cases s <;> interval_cases j <;> rfl

theorem i_extract32f_eq {id : Nat} (hi : id < 4) (a : Vec 32 4) : i_extract32f c id a = some (a.at_ id) := by
  have hsh : Hw.low (Hw.shuffle_ps a a (mmShuffle id id id id)) = a.at_ id := by
    rw [shuffle_ps_self]
    unfold Hw.low Hw.shuffle_epi32
    rw [gather_at _ _ (by omega)]
    simp only [Nat.zero_mod, Nat.zero_div, Nat.zero_mul, Nat.zero_add]
    rw [mm4_imm2 h hi (by omega), if_pos hi]
  unfold i_extract32f
  rw [rd_lt a hi, Hw.extr_lt a hi, hsh]
  by_cases g1 : c.null = true ∨ c.neonNoFltSp = true
  · rw [if_pos g1]
  rw [if_neg g1]
  by_cases g2 : c.sse2 = true
  · rw [if_pos g2]
    have : id = 0 ∨ id = 1 ∨ id = 2 ∨ id = 3 := by omega
    rcases this with e | e | e | e <;> subst e
    · rfl
    · rw [if_neg (by decide), if_pos rfl]
      split_ifs
      · exact congrArg some rfl
      · rfl
    · exact congrArg some rfl
    · rfl
  rw [if_neg g2]
  by_cases g3 : c.neon = true ∨ c.altivec = true ∨ c.msa = true
  · rw [if_pos g3]
  clear hsh
  cfg_absurd h

theorem i_extract64f_eq {id : Nat} (hi : id < 2) (a : Vec 64 2) : i_extract64f c id a = some (a.at_ id) := by
  unfold i_extract64f
  rw [rd_lt a hi, Hw.extr_lt a hi]
  by_cases g1 : c.null = true
  · rw [if_pos g1]
  rw [if_neg g1]
  by_cases g2 : c.sse2 = true
  · rw [if_pos g2]
    have : id = 0 ∨ id = 1 := by omega
    rcases this with e | e <;> subst e <;> rfl
  rw [if_neg g2]
  by_cases g3 : c.neon32 = true ∨ c.altivec = true ∨ c.msa = true ∨ c.neon64 = true
  · rw [if_pos g3]
  cfg_absurd h

theorem i_extract128_eq {sg : Bool} {id : Nat} (hw : k.okW w) (hi : id < 128 / w)
    (hm : ¬ (w = 64 ∧ k = .int ∧ msa32s c sg)) (a : Vec w (128 / w)) : i_extract128 c k sg id a = some (a.at_ id) := by
  unfold i_extract128
  rcases okW_cases hw with e | e | ⟨e2, e | e⟩ <;> subst e
  · cases k
    · exact i_extract64_eq h hi (fun g => hm ⟨rfl, rfl, g⟩) a
    · exact i_extract64f_eq h hi a
  · cases k
    · exact i_extract32_eq h hi a
    · exact i_extract32f_eq h hi a
  · exact i_extract8_eq h hi a
  · exact i_extract16_eq h hi a

theorem i_extract_eq {sg : Bool} {id : Nat} (hw : k.okW w) (hr : c.hasVec k w r = true) (hi : id < r.lanes w)
    (hm : ¬ (w = 64 ∧ k = .int ∧ msa32s c sg)) (a : Vec w (r.lanes w)) : i_extract c k sg r id a = some (a.at_ id) := by
  have hL := (blkL hw.isW).1
  have hp : (Hw.part (128 / w) (id / (128 / w)) a).at_ (id % (128 / w)) = a.at_ id := by
    rw [Hw.part_at _ (Nat.mod_lt _ hL), Nat.div_add_mod']
  have hwide : r ≠ .r128 → (if ¬ c.hasVec k w r then none
      else if w ≤ 32 ∧ k = .int then Hw.extr (Hw.part (128 / w) (id / (128 / w)) a) (id % (128 / w))
      else if w = 64 ∧ k = .flt ∧ r = .r256 ∧ c.avx2 ∧ id = 3 then some (extract64f_3 a)
      else i_extract128 c k false (id % (128 / w)) (Hw.part (128 / w) (id / (128 / w)) a)) = some (a.at_ id) := by
    intro _
    rw [if_neg (not_not.2 hr), Hw.extr_lt _ (Nat.mod_lt _ hL), hp]
    by_cases g1 : w ≤ 32 ∧ k = .int
    · rw [if_pos g1]
    rw [if_neg g1]
    by_cases g2 : w = 64 ∧ k = .flt ∧ r = .r256 ∧ c.avx2 ∧ id = 3
    · rw [if_pos g2]
      obtain ⟨rfl, rfl, rfl, _, rfl⟩ := g2
      rfl
    rw [if_neg g2, i_extract128_eq h hw (Nat.mod_lt _ hL) (fun g => by simp [msa32s] at g), hp]
  cases r
  · exact i_extract128_eq h hw hi hm a
  · exact hwide (by decide)
  · exact hwide (by decide)


/-- C23 (`extract`): lane `id` of a vector of any length, on every configuration. (The one exception, a
signed 64-bit lane on 32-bit MSA builds, is `C23_extract_msa32_wrong`.) -/
theorem C23_extract_partial {sg : Bool} {id : Nat} (hw : k.okW w) (hr : c.hasVec k w r = true) {K : Nat}
    (hi : id < K * r.lanes w) (hm : ¬ (w = 64 ∧ k = .int ∧ msa32s c sg)) (v : Fin K → Vec w (r.lanes w)) :
    extract c k sg r id v = some (Vec.at_ (Arr.flat v : Vec w (K * r.lanes w)) id) := by
  have hl : 0 < r.lanes w := Nat.pos_of_ne_zero fun e => by rw [e] at hi; omega
  have hK : id / r.lanes w < K := Nat.div_lt_of_lt_mul (by rwa [Nat.mul_comm] at hi)
  unfold extract vecRd
  rw [if_neg (not_not.2 hi), dif_pos hK, flat_at _ hi]
  exact i_extract_eq h hw hr (Nat.mod_lt _ hl) hm _

/-! ## insert -/

theorem i_insert8_eq {id : Nat} (hi : id < 16) (a : Vec 8 16) (x : BitVec 8) : i_insert8 c id a x = some (upd a id x) := by
  have hx := Hw.ins_lt a hi x
  have hs : (do
      let q ← Hw.extr (a.recast 16 (16 / 2) : Vec 16 (16 / 2)) (id / 2)
      let q' := if id % 2 = 1 then (q &&& 0x00ff#16) ||| (x.setWidth 16 <<< 8) else (q &&& 0xff00#16) ||| x.setWidth 16
      let b ← Hw.ins (a.recast 16 (16 / 2)) (id / 2) q'
      some (b.recast 8 16)) = some (upd a id x) := by
    rw [Hw.extr_lt _ (by omega)]
    simp only [Option.bind_eq_bind, Option.bind_some]
    rw [Hw.ins_lt _ (by omega)]
    refine congrArg some (ext_at fun t ht => ?_)
    rw [recast_at (by decide) (q := 2) (by decide) rfl (by rfl), upd_at _ _ (by omega), upd_at _ _ ht]
    have e := halves (r := .r128) (w := 8) (Or.inl rfl) rfl a (t / 2) (e := t % 2) (by omega)
    rw [Nat.div_add_mod] at e
    have e : a.at_ t = BitVec.extractLsb' (t % 2 * 8) 8 ((a.recast 16 8).at_ (t / 2)) := e
    by_cases g : t / 2 = id / 2
    · rw [if_pos g]
      rw [g] at e
      generalize (a.recast 16 (16 / 2)).at_ (id / 2) = q at *
      have e : a.at_ t = BitVec.extractLsb' (t % 2 * 8) 8 q := e
      by_cases g2 : t = id
      · rw [if_pos g2, g2]
        apply BitVec.eq_of_getLsbD_eq
        intro j hj
        rcases Nat.mod_two_eq_zero_or_one id with g3 | g3 <;> rw [g3] <;> interval_cases j <;> simp
      · rw [if_neg g2, e]
        have g4 : t % 2 = 1 - id % 2 := by omega
        rw [g4]
        apply BitVec.eq_of_getLsbD_eq
        intro j hj
        rcases Nat.mod_two_eq_zero_or_one id with g3 | g3 <;> rw [g3] <;> interval_cases j <;> simp
    · rw [if_neg g, if_neg (by omega), e]
  unfold i_insert8
  by_cases g1 : c.null = true
  · rw [if_pos g1, hx]
  rw [if_neg g1]
  by_cases g2 : c.sse41 = true
  · rw [if_pos g2, hx]
  rw [if_neg g2]
  by_cases g3 : c.sse2 = true
  · rw [if_pos g3]; exact hs
  rw [if_neg g3]
  by_cases g4 : c.neon = true ∨ c.altivec = true ∨ c.msa = true
  · rw [if_pos g4, hx]
  clear hx hs
  cfg_absurd h

theorem i_insert16_eq {id : Nat} (hi : id < n) (a : Vec 16 n) (x : BitVec 16) : i_insert16 c id a x = some (upd a id x) := by
  unfold i_insert16
  rw [Hw.ins_lt a hi]
  by_cases g : c.null = true ∨ c.sse2 = true ∨ c.neon = true ∨ c.altivec = true ∨ c.msa = true
  · rw [if_pos g]
  cfg_absurd h

theorem i_insert32_eq {id : Nat} (hi : id < 4) (a : Vec 32 4) (x : BitVec 32) : i_insert32 c id a x = some (upd a id x) := by
  have hx := Hw.ins_lt a hi x
  have hs : (do
      let a1 ← i_insert16 c (id * 2) (a.recast 16 (4 * 2) : Vec 16 (4 * 2)) (x.setWidth 16)
      let a2 ← i_insert16 c (id * 2 + 1) a1 ((x >>> 16).setWidth 16)
      some (a2.recast 32 4)) = some (upd a id x) := by
    rw [i_insert16_eq h (by omega)]
    simp only [Option.bind_eq_bind, Option.bind_some]
    rw [i_insert16_eq h (by omega)]
    exact congrArg some (upd_halves (v := 16) (by decide) a x)
  unfold i_insert32
  by_cases g1 : c.null = true
  · rw [if_pos g1, hx]
  rw [if_neg g1]
  by_cases g2 : c.sse41 = true
  · rw [if_pos g2, hx]
  rw [if_neg g2]
  by_cases g3 : c.sse2 = true
  · rw [if_pos g3]; exact hs
  rw [if_neg g3]
  by_cases g4 : c.neon = true ∨ c.altivec = true ∨ c.msa = true
  · rw [if_pos g4, hx]
  clear hx hs
  cfg_absurd h

theorem low64_eq (x : BitVec 64) : ∃ v, low64 c x = some v ∧ v.at_ 0 = x := by
  unfold low64
  by_cases g : c.bits64 = true
  · rw [if_pos g]; exact ⟨_, rfl, rfl⟩
  have hzz := i_zip_lo_eq h (k := .int) (w := 32) (n := 4) iw32 (r := .r128) rfl rfl
    (Hw.ofLow (x.setWidth 32) : Vec 32 4) (Hw.ofLow ((x >>> 32).setWidth 32))
  rw [if_neg g, hzz]
  refine ⟨_, rfl, ?_⟩
  set z := gather (128 / 32) (zipI 32) (Hw.ofLow (x.setWidth 32) : Vec 32 4) (Hw.ofLow ((x >>> 32).setWidth 32)) with hz
  have h0 : z.at_ 0 = x.setWidth 32 := rfl
  have h1 : z.at_ 1 = (x >>> 32).setWidth 32 := rfl
  have e : z = (z.recast 64 2).recast 32 (2 * 2) := (Vec.recast_recast z (by decide) (by rfl)).symm
  have := join_halves (z.recast 64 2 : Vec 64 2) 0
  rw [← e] at this
  rw [← this]
  show join32 (z.at_ 0) (z.at_ 1) = x
  rw [h0, h1]
  unfold join32
  apply BitVec.eq_of_getLsbD_eq
  intro k hk
  simp only [BitVec.getLsbD_or, BitVec.getLsbD_setWidth, BitVec.getLsbD_ushiftRight, BitVec.getLsbD_shiftLeft, hk,
    decide_true, Bool.true_and]
  by_cases h : k < 32
  · simp [h]
  · simp [h, show k - 32 < 32 by omega, show k - 32 < 64 by omega, show 32 + (k - 32) = k by omega]

theorem i_insert64_eq {id : Nat} (hi : id < 2) (a : Vec 64 2) (x : BitVec 64) : i_insert64 c id a x = some (upd a id x) := by
  have hx := Hw.ins_lt a hi x
  have h41 : (do
      let a1 ← i_insert32 c (id * 2) (a.recast 32 4) (x.setWidth 32)
      let a2 ← i_insert32 c (id * 2 + 1) a1 ((x >>> 32).setWidth 32)
      some (a2.recast 64 2)) = some (upd a id x) := by
    rw [i_insert32_eq h (by omega)]
    simp only [Option.bind_eq_bind, Option.bind_some]
    rw [i_insert32_eq h (by omega)]
    exact congrArg some (upd_halves (v := 32) (by decide) a x)
  have hm : (do
      let a1 ← Hw.ins (a.recast 32 4 : Vec 32 4) (id * 2) (x.setWidth 32)
      let a2 ← Hw.ins a1 (id * 2 + 1) ((x >>> 32).setWidth 32)
      some (a2.recast 64 2)) = some (upd a id x) := by
    rw [Hw.ins_lt _ (by omega)]
    simp only [Option.bind_eq_bind, Option.bind_some]
    rw [Hw.ins_lt _ (by omega)]
    exact congrArg some (upd_halves (v := 32) (by decide) a x)
  have h2 : (do
      let vx ← low64 c x
      if id = 0 then shuffle1_64 c .int .r128 0 1 vx a else shuffle1_64 c .int .r128 0 0 a vx) = some (upd a id x) := by
    obtain ⟨v, e, p⟩ := low64_eq h x
    rw [e]
    simp only [Option.bind_eq_bind, Option.bind_some]
    have e1 := shuffle1_64_eq h (k := .int) (r := .r128) (n := 2) (s0 := 0) (s1 := 1) rfl rfl (by omega) (by omega) v a
    have e2 := shuffle1_64_eq h (k := .int) (r := .r128) (n := 2) (s0 := 0) (s1 := 0) rfl rfl (by omega) (by omega) a v
    rw [e1, e2]
    have : id = 0 ∨ id = 1 := by omega
    rcases this with e | e <;> subst e
    · rw [if_pos rfl]
      refine congrArg some (ext_at fun t ht => ?_)
      rw [upd_at _ _ ht, gather_at _ _ ht]
      interval_cases t
      · exact p
      · rfl
    · rw [if_neg (by decide)]
      refine congrArg some (ext_at fun t ht => ?_)
      rw [upd_at _ _ ht, gather_at _ _ ht]
      interval_cases t
      · rfl
      · exact p
  unfold i_insert64
  by_cases g1 : c.null = true
  · rw [if_pos g1, hx]
  rw [if_neg g1]
  by_cases g2 : c.sse41 = true
  · rw [if_pos g2, hx, h41, ite_self]
  rw [if_neg g2]
  by_cases g3 : c.sse2 = true
  · rw [if_pos g3]; exact h2
  rw [if_neg g3]
  by_cases g4 : c.neon = true ∨ c.altivec = true
  · rw [if_pos g4, hx]
  rw [if_neg g4]
  by_cases g5 : c.msa = true
  · rw [if_pos g5, hx, hm, ite_self]
  clear hx h41 hm h2
  cfg_absurd h

theorem i_insert64f_eq {id : Nat} (hi : id < 2) (a : Vec 64 2) (x : BitVec 64) : i_insert64f c id a x = some (upd a id x) := by
  unfold i_insert64f
  rw [i_insert64_eq h hi]
  by_cases g : c.sse2 = true
  · rw [if_pos g]
    have : id = 0 ∨ id = 1 := by omega
    rcases this with e | e <;> subst e
    · rw [if_pos rfl]
      refine congrArg some (funext fun i => ?_)
      fin_cases i <;> rfl
    · rw [if_neg (by decide), if_pos rfl]
      refine congrArg some (funext fun i => ?_)
      fin_cases i <;> rfl
  · rw [if_neg g]

theorem i_insert128_eq {id : Nat} (hw : k.okW w) (hi : id < 128 / w) (a : Vec w (128 / w)) (x : BitVec w) :
    i_insert128 c k id a x = some (upd a id x) := by
  unfold i_insert128
  rcases okW_cases hw with e | e | ⟨e2, e | e⟩ <;> subst e
  · cases k
    · exact i_insert64_eq h hi a x
    · exact i_insert64f_eq h hi a x
  · cases k
    · exact i_insert32_eq h hi a x
    · show i_insert32f c id a x = _
      unfold i_insert32f
      rw [i_insert32_eq h hi a x, Hw.ins_lt a hi, ite_self]
  · exact i_insert8_eq h hi a x
  · exact i_insert16_eq h hi a x

omit h in
theorem insertVia_eq {L id : Nat} {op : Vec w L → Option (Vec w L)} {x : BitVec w} (hL : 0 < L) (hd : L ∣ n) (hi : id < n)
    (a : Vec w n) (hop : ∀ p, op p = some (upd p (id % L) x)) : insertVia op (id / L) a = some (upd a id x) := by
  unfold insertVia
  rw [hop]
  refine congrArg some (funext fun i => ?_)
  show (if i.val / L = id / L then _ else _) = if i.val = id then x else a i
  by_cases g : i.val / L = id / L
  · rw [if_pos g, upd_at _ _ (Nat.mod_lt _ hL), Hw.part_at _ (Nat.mod_lt _ hL), ← g, Nat.div_add_mod', Vec.at_fin]
    have e1 := Nat.div_add_mod i.val L
    have e2 := Nat.div_add_mod id L
    rw [← g] at e2
    by_cases g2 : i.val = id
    · rw [if_pos g2, if_pos (by rw [g2])]
    · rw [if_neg g2, if_neg (by omega)]
  · rw [if_neg g, if_neg (by rintro rfl; exact g rfl)]

theorem i_insert_eq {id : Nat} (hw : k.okW w) (hr : c.hasVec k w r = true) (hi : id < r.lanes w)
    (a : Vec w (r.lanes w)) (x : BitVec w) : i_insert c k r id a x = some (upd a id x) := by
  have hL := (blkL hw.isW).1
  have hwide : r ≠ .r128 → (if ¬ c.hasVec k w r then none
    else if w ≤ 32 ∧ k = .int then
      insertVia (L := 128 / w) (fun p => Hw.ins p (id % (128 / w)) x) (id / (128 / w)) a
    else if w = 64 ∧ k = .flt ∧ r = .r256 ∧ c.avx2 then
      if id < 4 then some (Hw.blendi a (Vec.splat x) (1 <<< id)) else none
    else insertVia (L := 128 / w) (fun p => i_insert128 c k (id % (128 / w)) p x) (id / (128 / w)) a) =
      some (upd a id x) := by
    intro _
    rw [if_neg (not_not.2 hr), insertVia_eq hL (lanesW_dvd hw.isW r) hi a (fun p => Hw.ins_lt p (Nat.mod_lt _ hL) x),
      insertVia_eq hL (lanesW_dvd hw.isW r) hi a (fun p => i_insert128_eq h hw (Nat.mod_lt _ hL) p x)]
    by_cases g1 : w ≤ 32 ∧ k = .int
    · rw [if_pos g1]
    rw [if_neg g1]
    by_cases g2 : w = 64 ∧ k = .flt ∧ r = .r256 ∧ c.avx2
    · rw [if_pos g2]
      obtain ⟨rfl, rfl, rfl, _⟩ := g2
      have hi : id < 4 := hi
      rw [if_pos hi]
      refine congrArg some (funext fun i => ?_)
      rcases i with ⟨i, hi2⟩
      have hi2 : i < 4 := hi2
      unfold Hw.blendi upd
      show (if (1 <<< id).testBit i then x else _) = if i = id then x else _
      rw [Nat.one_shiftLeft, Nat.testBit_two_pow]
      by_cases e : i = id
      · rw [if_pos e, if_pos (by simp [e])]
      · rw [if_neg e, if_neg (by simpa using Ne.symm e)]
    rw [if_neg g2]
  cases r
  · exact i_insert128_eq h hw hi a x
  · exact hwide (by decide)
  · exact hwide (by decide)

/-- C23 (`insert`): lane `id` becomes `x`, every other lane keeps its value, for any vector length. -/
theorem C23_insert {id : Nat} (hw : k.okW w) (hr : c.hasVec k w r = true) {K : Nat}
    (hi : id < K * r.lanes w) (v : Fin K → Vec w (r.lanes w)) (x : BitVec w) :
    ∃ res, insert c k r id v x = some res ∧ ∀ j, j < K * r.lanes w →
      Vec.at_ (Arr.flat res : Vec w (K * r.lanes w)) j =
        if j = id then x else Vec.at_ (Arr.flat v : Vec w (K * r.lanes w)) j := by
  have hl : 0 < r.lanes w := Nat.pos_of_ne_zero fun e => by rw [e] at hi; omega
  have hK : id / r.lanes w < K := Nat.div_lt_of_lt_mul (by rwa [Nat.mul_comm] at hi)
  unfold insert vecRd
  rw [if_neg (not_not.2 hi), dif_pos hK]
  simp only [Option.bind_eq_bind, Option.bind_some]
  rw [i_insert_eq h hw hr (Nat.mod_lt _ hl)]
  simp only [Option.bind_some]
  rw [dif_pos hK]
  refine ⟨_, rfl, fun j hj => ?_⟩
  have hKj : j / r.lanes w < K := Nat.div_lt_of_lt_mul (by rwa [Nat.mul_comm] at hj)
  rw [flat_at _ hj, flat_at _ hj]
  unfold Arr.set
  have e1 := Nat.div_add_mod j (r.lanes w)
  have e2 := Nat.div_add_mod id (r.lanes w)
  by_cases g : j / r.lanes w = id / r.lanes w
  · rw [if_pos (Fin.ext g), upd_at _ _ (Nat.mod_lt _ hl)]
    have e3 : (⟨id / r.lanes w, hK⟩ : Fin K) = ⟨j / r.lanes w, hKj⟩ := Fin.ext g.symm
    rw [e3]
    rw [g] at e1
    by_cases g2 : j = id
    · rw [if_pos g2, if_pos (by rw [g2])]
    · rw [if_neg g2, if_neg (by omega)]
  · rw [if_neg (fun g' => g (congrArg Fin.val g')), if_neg (by rintro rfl; exact g rfl)]

/-- C23: `extract<id>(insert<id>(v, x)) == x`. -/
theorem C23_extract_insert_partial {sg : Bool} {id : Nat} (hw : k.okW w) (hr : c.hasVec k w r = true) {K : Nat}
    (hi : id < K * r.lanes w) (hm : ¬ (w = 64 ∧ k = .int ∧ msa32s c sg)) (v : Fin K → Vec w (r.lanes w)) (x : BitVec w) :
    (insert c k r id v x).bind (extract c k sg r id) = some x := by
  obtain ⟨res, e, p⟩ := C23_insert h hw hr hi v x
  rw [e]
  show extract c k sg r id res = _
  rw [C23_extract_partial h hw hr hi hm, p _ hi, if_pos rfl]

omit h in
/-- C23: an index past the end is rejected at compile time. -/
theorem C23_rejects {sg : Bool} {id : Nat} {K : Nat} (hi : K * r.lanes w ≤ id) (gnuc : Bool)
    (v d : Fin K → Vec w (r.lanes w)) (x : BitVec w) :
    extract c k sg r id v = none ∧ insert c k r id v x = none ∧ splat c gnuc k r id v d = none := by
  unfold extract insert splat
  rw [if_pos (by omega), if_pos (by omega), if_pos (by omega)]
  exact ⟨rfl, rfl, rfl⟩

end
end Simdpp
