import Verif.Props.Mul

/-! C03: widening multiplication and high halves. -/

namespace Simdpp
open Spec Sh

variable {w v n N : Nat} {c : Cfg} (h : c.Ok)

include h in
/-- Interleaving the products of the even and the odd lanes. -/
theorem mulEO_eq (sg : Bool) (hv : v = 32 ∨ v = 64) {m : Nat} (hm : m = 128 / v) (hn : n = 2 * m) (a b : Vec w n) :
    (catM m (fun p => if p = 0 then i_zip_lo c .int .r128 (Hw.vmul_eo 0 sg v a b : Vec v m) (Hw.vmul_eo 1 sg v a b : Vec v m)
      else i_zip_hi c .int .r128 (Hw.vmul_eo 0 sg v a b : Vec v m) (Hw.vmul_eo 1 sg v a b : Vec v m)) : Option (Vec v n)) =
      some (Hw.vmull sg v a b) := by
  have hvw : IsW v := by rcases hv with e | e <;> subst e; exacts [iw32, iw64]
  have hme : 2 * (m / 2) = m ∧ 0 < m := by subst hm; rcases hv with e | e <;> subst e <;> decide
  refine catM_of hme.2 fun p hpN => ?_
  have hp : p < 2 := by
    by_contra g
    have : 2 * m ≤ p * m := Nat.mul_le_mul_right _ (by omega)
    omega
  have at_eo : ∀ o q, q < m → (Hw.vmul_eo o sg v a b : Vec v m).at_ q = Hw.mulLane sg v (a.at_ (2 * q + o)) (b.at_ (2 * q + o)) := by
    intro o q hq
    rw [Vec.at_lt _ hq]; rfl
  have hz1 := i_zip_lo_eq h (k := .int) (r := .r128) (n := m) hvw rfl hm (Hw.vmul_eo 0 sg v a b : Vec v m) (Hw.vmul_eo 1 sg v a b)
  have hz2 := i_zip_hi_eq h (k := .int) (r := .r128) (n := m) hvw rfl hm (Hw.vmul_eo 0 sg v a b : Vec v m) (Hw.vmul_eo 1 sg v a b)
  rcases (by omega : p = 0 ∨ p = 1) with e | e <;> subst e
  · rw [if_pos rfl]
    refine ⟨_, hz1, fun j hj hN => ?_⟩
    rw [gather_at _ _ hj, vmull_at _ _ _ hN, ← hm, Nat.mod_eq_of_lt hj, Nat.div_eq_of_lt hj]
    unfold zipI
    rw [← hm]
    by_cases e : j % 2 = 0
    · rw [if_pos e, if_pos (by omega), at_eo _ _ (by omega)]
      congr 2 <;> omega
    · rw [if_neg e, if_neg (by omega), if_pos (by omega), at_eo _ _ (by omega)]
      congr 2 <;> omega
  · rw [if_neg (by decide)]
    refine ⟨_, hz2, fun j hj hN => ?_⟩
    rw [gather_at _ _ hj, vmull_at _ _ _ hN, ← hm, Nat.mod_eq_of_lt hj, Nat.div_eq_of_lt hj]
    unfold zipH
    rw [← hm]
    by_cases e : j % 2 = 0
    · rw [if_pos e, if_pos (by omega), at_eo _ _ (by omega)]
      congr 2 <;> omega
    · rw [if_neg e, if_neg (by omega), if_pos (by omega), at_eo _ _ (by omega)]
      congr 2 <;> omega

/-- Products of the parts. -/
theorem mulParts_eq (sg : Bool) {m : Nat} (hm : 0 < m) (a b : Vec w n) :
    (catM m (fun p => some (Hw.vmull sg v (Hw.part m p a) (Hw.part m p b))) : Option (Vec v n)) = some (Hw.vmull sg v a b) := by
  refine catM_of hm fun p hp => ⟨_, rfl, fun j hj hN => ?_⟩
  rw [vmull_at _ _ _ hj, vmull_at _ _ _ hN, Hw.part_at _ hj, Hw.part_at _ hj]

theorem mullo_ext (sg : Bool) (a b : Vec w n) : Hw.mullo (extOf sg v a) (extOf sg v b) = Hw.vmull sg v a b := rfl

/-- Products of the low halves of extended lanes. -/
theorem mul_ep32_ext (sg : Bool) (a b : Vec 32 n) : Hw.mul_ep32 sg (extOf sg 64 a) (extOf sg 64 b) = Hw.vmull sg 64 a b := by
  have key : ∀ z : BitVec 32, (Hw.extLane sg 64 z).setWidth 32 = z := by
    intro z
    cases sg
    · exact (BitVec.setWidth_setWidth_of_le z (by decide)).trans (BitVec.setWidth_eq z)
    · apply BitVec.eq_of_getLsbD_eq
      intro k hk
      simp only [Hw.extLane, if_true, BitVec.getLsbD_setWidth, BitVec.getLsbD_signExtend]
      simp [hk, show k < 64 by omega]
  funext i
  unfold Hw.mul_ep32 extOf Hw.vmull
  rw [key, key]

include h in
theorem mull16_eq (sg : Bool) {r : Reg} (hr : c.hasInt 16 r = true) (hn : n = r.lanes 16) (a b : Vec 16 n) :
    mull16 c sg r a b = some (Hw.vmull sg 32 a b) := by
  unfold mull16
  cases r
  · dsimp only
    change n = 8 at hn
    subst hn
    by_cases g1 : c.null
    · rw [if_pos g1]; exact Null.mull16_eq sg a b
    rw [if_neg g1]
    by_cases g2 : c.sse2
    · rw [if_pos g2]
      refine mulZip_eq h sg (r := .r128) rfl (m := 4) (by decide) rfl rfl ⟨1, rfl⟩ a b a b ?_ ?_ <;>
        exact fun p j hp hj => by congr 1; omega
    rw [if_neg g2]
    by_cases g3 : c.neon
    · rw [if_pos g3]; exact mulParts_eq sg (by decide) a b
    rw [if_neg g3]
    by_cases g4 : c.altivec
    · rw [if_pos g4]; exact mulEO_eq h sg (Or.inl rfl) rfl rfl a b
    rw [if_neg g4]
    by_cases g5 : c.msa
    · rw [if_pos g5]
      have hV : c.VLen 16 8 := Or.inl ⟨.r128, rfl, rfl⟩
      rw [i_ext16_32_eq h sg hV, i_ext16_32_eq h sg hV]
      rfl
    · exfalso; clear a b hr; cfg_absurd h
  · refine (if_pos hr).trans ?_
    change n = 16 at hn
    subst hn
    have key : ∀ (x : Vec 16 16) p j, p < 2 → j < 8 →
        ((Hw.permute4x64 (x.recast 64 4 : Vec 64 4) (mmShuffle 3 1 2 0)).recast 16 16).at_ (j / 4 * 8 + p * 4 + j % 4) =
          x.at_ (p * 8 + j) := by
      intro x p j hp hj
      rw [perm64_at (n := 16) (m := 4) rfl (fun i => if i = 0 then 0 else if i = 1 then 2 else if i = 2 then 1 else 3) x _ ?_ ?_ (by omega)]
      · congr 1
        rcases (by omega : p = 0 ∨ p = 1) with e | e <;> subst e <;> rcases (by omega : j / 4 = 0 ∨ j / 4 = 1) with e | e <;>
          simp only [e] <;> split_ifs <;> omega
      · intro i hi
        unfold Hw.permute4x64
        rw [gather_at _ _ hi, Nat.div_eq_of_lt hi, Nat.mod_eq_of_lt hi]
        rcases (by omega : i = 0 ∨ i = 1 ∨ i = 2 ∨ i = 3) with e | e | e | e <;> subst e <;> rfl
      · intro i hi
        split_ifs <;> omega
    exact mulZip_eq h sg (r := .r256) hr (m := 8) (by decide) rfl rfl ⟨2, rfl⟩ a b _ _ (key a) (key b)
  · refine (if_pos hr).trans ?_
    change n = 32 at hn
    subst hn
    have key : ∀ (x : Vec 16 32) p j, p < 2 → j < 16 →
        ((Hw.permutexvar64 [0, 4, 1, 5, 2, 6, 3, 7] (x.recast 64 8 : Vec 64 8)).recast 16 32).at_ (j / 4 * 8 + p * 4 + j % 4) =
          x.at_ (p * 16 + j) := by
      intro x p j hp hj
      have hb : ∀ i, i < 8 → [0, 4, 1, 5, 2, 6, 3, 7].getD i 0 < 8 := by decide
      rw [perm64_at (n := 32) (m := 8) rfl (fun i => [0, 4, 1, 5, 2, 6, 3, 7].getD i 0) x _ ?_ hb (by omega)]
      · congr 1
        revert hj
        revert j
        rcases (by omega : p = 0 ∨ p = 1) with e | e <;> subst e <;> decide
      · intro i hi
        rw [Vec.at_lt _ hi]
        unfold Hw.permutexvar64
        rw [Nat.mod_eq_of_lt (hb _ hi)]
    exact mulZip_eq h sg (r := .r512) hr (m := 16) (by decide) rfl rfl ⟨4, rfl⟩ a b _ _ (key a) (key b)

/-- The signed 32-bit widening multiplication is missing: below SSE4.1, on AltiVec without VSX 2.07 and for 512-bit
registers. -/
def Mull32Missing (c : Cfg) (r : Reg) : Prop :=
  r = .r512 ∨ r = .r128 ∧ (c.sse2 = true ∧ c.sse41 = false ∨ c.altivec = true ∧ c.vsx207 = false)

include h in
theorem mull32_eq (sg : Bool) {r : Reg} (hr : c.hasInt 32 r = true) (hn : n = r.lanes 32)
    (hx : sg = true → ¬ Mull32Missing c r) (a b : Vec 32 n) : mull32 c sg r a b = some (Hw.vmull sg 64 a b) := by
  unfold mull32
  have wide : ∀ (r' : Reg) (m : Nat), 0 < m → m = r'.lanes 32 → c.hasInt 32 r' = true →
      (catM m (fun p => do
        let al ← i_ext32_64 c sg (Hw.part m p a)
        let bl ← i_ext32_64 c sg (Hw.part m p b)
        some (Hw.mul_ep32 sg al bl)) : Option (Vec 64 n)) = some (Hw.vmull sg 64 a b) := by
    intro r' m hm0 hm hr'
    have hV : c.VLen 32 m := Or.inl ⟨r', hr', hm⟩
    rw [← mulParts_eq sg hm0 a b]
    congr 1
    funext p
    rw [i_ext32_64_eq h sg hV, i_ext32_64_eq h sg hV]
    simp only [Option.bind_eq_bind, Option.bind_some, mul_ep32_ext]
  cases r
  · dsimp only
    change n = 4 at hn
    subst hn
    by_cases g1 : c.null
    · rw [if_pos g1]; exact Null.mull32_eq sg a b
    rw [if_neg g1]
    by_cases g2 : (if sg then c.sse41 else c.sse2)
    · rw [if_pos g2]
      refine catM_of (by decide) fun p hp => ?_
      have hp2 : p < 2 := by omega
      have key : ∀ z : Vec 32 4, ∃ x, zipPairR c .r128 2 z z p = some x ∧ ∀ j, j < 2 → (x.at_ j).setWidth 32 = z.at_ (p * 2 + j) := by
        intro z
        obtain ⟨x, e, hx⟩ := zipPairR_eq h (w := 32) (n := 4) (m := 2) (r := .r128) iw32 (by decide) rfl rfl rfl z z hp2
        refine ⟨x, e, fun j hj => ?_⟩
        apply BitVec.eq_of_getLsbD_eq
        intro k hk
        rw [BitVec.getLsbD_setWidth, hx j hj k (by omega), if_pos hk]
        simp only [hk, decide_true, Bool.true_and]
        congr 2
        omega
      obtain ⟨x, ex, hxx⟩ := key a
      obtain ⟨y, ey, hy⟩ := key b
      refine ⟨Hw.mul_ep32 sg x y, ?_, fun j hj hN => ?_⟩
      · rw [ex, ey]; rfl
      · rw [mul_ep32_at _ _ _ hj, hxx j hj, hy j hj, vmull_at _ _ _ hN]
    rw [if_neg g2]
    by_cases g3 : c.neon
    · rw [if_pos g3]; exact mulParts_eq sg (by decide) a b
    rw [if_neg g3]
    by_cases g4 : c.vsx207
    · rw [if_pos g4]; exact mulEO_eq h sg (Or.inr rfl) rfl rfl a b
    rw [if_neg g4]
    by_cases g5 : ¬ sg ∧ c.altivec
    · rw [if_pos g5]; exact Null.mull32_eq sg a b
    rw [if_neg g5]
    by_cases g6 : c.msa
    · rw [if_pos g6]
      have hV : c.VLen 32 4 := Or.inl ⟨.r128, rfl, rfl⟩
      rw [i_ext32_64_eq h sg hV, i_ext32_64_eq h sg hV]
      rfl
    · exfalso
      unfold Mull32Missing at hx
      clear a b hr wide
      cases sg
      · clear hx; simp only [Bool.false_eq_true, if_false, not_false_eq_true, true_and] at *
        cfg_absurd h
      · have hx := hx rfl
        have e1 : c.sse41 = false := by simpa using g2
        have e2 : c.vsx207 = false := by simpa using g4
        have e3 : c.sse2 = false := by
          cases e : c.sse2
          · rfl
          · exact absurd (Or.inr ⟨rfl, Or.inl ⟨e, e1⟩⟩) hx
        have e4 : c.altivec = false := by
          cases e : c.altivec
          · rfl
          · exact absurd (Or.inr ⟨rfl, Or.inr ⟨e, e2⟩⟩) hx
        clear hx g5 g2
        cfg_absurd h
  · refine (if_pos hr).trans ?_
    change n = 8 at hn
    subst hn
    exact wide .r128 4 (by decide) rfl rfl
  · have hs : sg = false := by
      cases sg
      · rfl
      · exact absurd (Or.inl rfl) (hx rfl)
    subst hs
    refine (if_pos ⟨hr, by decide⟩).trans ?_
    change n = 16 at hn
    subst hn
    have h2 : c.avx2 = true := h.avx512f hr
    exact wide .r256 8 (by decide) rfl h2

theorem mull32_missing {r : Reg} (h : c.Ok) (hx : Mull32Missing c r) (a b : Vec 32 n) : mull32 c true r a b = none := by
  unfold mull32
  rcases hx with e | ⟨e, hx⟩
  · subst e
    exact if_neg (by simp)
  · subst e
    dsimp only
    have h1 : ¬ c.null ∧ ¬ c.sse41 ∧ ¬ c.neon ∧ ¬ c.vsx207 ∧ ¬ c.msa := by
      refine ⟨?_, ?_, ?_, ?_, ?_⟩ <;> intro g <;> clear a b <;> rcases hx with ⟨e1, e2⟩ | ⟨e1, e2⟩ <;> cfg_absurd h
    rw [if_neg h1.1, if_pos rfl, if_neg h1.2.1, if_neg h1.2.2.1, if_neg h1.2.2.2.1, if_neg (by simp), if_neg h1.2.2.2.2]

end Simdpp
