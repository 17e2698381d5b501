import Verif.Props.Shuffle64Check
import Verif.Props.Shuffle32

/-!
# C18: selector-driven shuffles, 64-bit lanes
-/

namespace Simdpp
open Spec Sh

variable {n : Nat}

/-! ## shuffle2x2, shuffle1, permute2 -/

/-- The VSX branch for this kind of 64-bit lanes exists. -/
def vsx64 (c : Cfg) : Kind → Bool
  | .flt => c.vsx206
  | .int => c.vsx207

/-- The instantiations of `shuffle2x2` on 64-bit lanes that select correctly. -/
def okSel (sse2 ssse3 sse41 vsx : Bool) (k : Kind) (r : Reg) (s0 s1 : Nat) : Bool :=
  if s0 < 2 then true
  else if s1 ≥ 2 then !(sse2 && k == .int && r != .r512)
  else if s0 = 2 ∧ s1 = 1 then if sse2 then sse41 || r != .r128 else !vsx
  else if s0 = 3 ∧ s1 = 0 then
    if sse2 then k == .int && ((r == .r128 && ssse3) || r == .r256) else !vsx
  else true

/-- The instantiations of `shuffle2x2` on 64-bit lanes that select correctly. -/
def ok2x2_64 (c : Cfg) (k : Kind) (r : Reg) (s0 s1 : Nat) : Bool :=
  okSel c.sse2 c.ssse3 c.sse41 (vsx64 c k) k r s0 s1

namespace P64

theorem chk_sseF : ∀ b b' v r, all2 4 (fun s0 s1 => okSel true b b' v .flt r s0 s1 ==
      (sseF b' r s0 s1).chk 2 (r.lanes 64) 64 (sel2 s0 s1)) = true := by
  intro b b' v r; cases b <;> cases b' <;> cases v <;> cases r <;> decide +kernel

theorem chk_sseI128 : ∀ b b' v, all2 4 (fun s0 s1 =>
    (b' && !b) || okSel true b b' v .int .r128 s0 s1 ==
      (sseI128 b b' s0 s1).chk 2 2 64 (sel2 s0 s1)) = true := by
  intro b b' v; cases b <;> cases b' <;> cases v <;> decide +kernel

theorem chk_sseI256 : ∀ b b' v, all2 4 (fun s0 s1 => okSel true b b' v .int .r256 s0 s1 ==
      (sseI256 s0 s1).chk 2 4 64 (sel2 s0 s1)) = true := by
  intro b b' v; cases b <;> cases b' <;> cases v <;> decide +kernel

theorem chk_sseI512 : ∀ b b' v, all2 4 (fun s0 s1 => okSel true b b' v .int .r512 s0 s1 ==
      (sseI512 s0 s1).chk 4 8 64 (wid 2 4 (sel2 s0 s1))) = true := by
  intro b b' v; cases b <;> cases b' <;> cases v <;> decide +kernel

theorem chk_vsx : ∀ b b' k, all2 4 (fun s0 s1 => okSel false b b' true k .r128 s0 s1 ==
      (vsx s0 s1).chk 2 2 64 (sel2 s0 s1)) = true := by
  intro b b' k; cases b <;> cases b' <;> cases k <;> decide +kernel

theorem chk_neon : ∀ b, all2 4 (fun s0 s1 => (neonShuffle2x2 b s0 s1).chk 2 2 64 (sel2 s0 s1)) = true := by
  intro b; cases b <;> decide +kernel

theorem chk_neonP : ∀ b, all2 2 (fun s0 s1 => (neonPermute2 b s0 s1).chk 2 2 64 (sel2 s0 s1)) = true := by
  intro b; cases b <;> decide +kernel

theorem chk_vsxP : all2 2 (fun s0 s1 => (xxpermdi .a .a (vsxMask s0 s1)).chk 2 2 64 (sel2 s0 s1)) = true := by
  decide +kernel

theorem chk_pd : all2 2 (fun s0 s1 => (Prog.pd (mask2x2 s0 s1) .a .a).chk 2 2 64 (sel2 s0 s1)) = true := by
  decide +kernel

end P64

theorem gather_wid2 {w s0 s1 : Nat} (a b : Vec w n) :
    gather 4 (wid 2 4 (sel2 s0 s1)) a b = gather 2 (sel2 s0 s1) a b :=
  ((IsG.widen (L := 2) (m := 2) (by decide) (by decide) (a := a) (b := b) (f := sel2 s0 s1) rfl).eq (by decide)
    fun _ _ => rfl).symm

theorem Null.shuffle2x2_64_eq {w s0 s1 : Nat} (h0 : s0 < 4) (h1 : s1 < 4) (a b : Vec w 2) :
    Null.shuffle2x2_64 s0 s1 a b = some (gather 2 (sel2 s0 s1) a b) := by
  have e : ∀ s, s < 4 → pick 2 s a b =
      some (if s < 2 then a.at_ s else b.at_ (s - 2)) := by
    intro s hs
    unfold pick
    split_ifs with h
    · exact rd_lt a (by omega)
    · exact rd_lt b (by omega)
  unfold shuffle2x2_64
  simp only [e s0 h0, e s1 h1, Option.bind_eq_bind, Option.bind_some,
    wr_lt _ (show 0 < 2 by decide), wr_lt _ (show 1 < 2 by decide)]
  apply ret_eq
  intro i
  unfold gather
  have hi := i.isLt
  dsimp only
  rw [Nat.mod_eq_of_lt hi, Nat.div_eq_of_lt hi, Nat.zero_mul]
  simp only [Nat.zero_add]
  rcases i with ⟨_ | _ | i, hi'⟩ <;> first | omega | (interval_cases s0 <;> interval_cases s1 <;> rfl)

section
variable {c : Cfg} (h : c.Ok) {r : Reg}
include h

theorem i_shuffle2x2_64_eq {k : Kind} (hr : c.hasVec k 64 r = true) (hn : n = r.lanes 64)
    {s0 s1 : Nat} (h0 : s0 < 4) (h1 : s1 < 4) (hok : ok2x2_64 c k r s0 s1 = true) (a b : Vec 64 n) :
    i_shuffle2x2_64 c k r s0 s1 a b = some (gather 2 (sel2 s0 s1) a b) := by
  have h2n : 2 ∣ n := by subst hn; cases r <;> decide
  have hF : k = .flt → c.sse2 = true →
      some ((P64.sseF c.sse41 r s0 s1).run 2 a b) = some (gather 2 (sel2 s0 s1) a b) := by
    intro hk hs
    subst hk
    have := all2_spec (P64.chk_sseF c.ssse3 c.sse41 (vsx64 c .flt) r) h0 h1
    rw [beq_iff_eq] at this
    refine congrArg some (Prog.chk_run (by decide) h2n (hn ▸ this ▸ ?_) a b)
    unfold ok2x2_64 at hok
    rw [hs] at hok
    exact hok
  have hV : vsx64 c k = true → c.sse2 = false → r = .r128 →
      some ((P64.vsx s0 s1).run 2 a b) = some (gather 2 (sel2 s0 s1) a b) := by
    intro hv hs hr'
    subst hr'
    subst hn
    have := all2_spec (P64.chk_vsx c.ssse3 c.sse41 k) h0 h1
    rw [beq_iff_eq] at this
    refine congrArg some (Prog.chk_run (by decide) h2n (this ▸ ?_) a b)
    unfold ok2x2_64 at hok
    rw [hs, hv] at hok
    exact hok
  unfold i_shuffle2x2_64
  rw [if_neg (not_not.2 ⟨h0, h1⟩)]
  cases r
  · have hn : n = 2 := hn
    subst hn
    have hN := fun b' => congrArg some (Prog.chk_run (by decide) h2n (all2_spec (P64.chk_neon b') h0 h1) a b)
    have hZ := Null.shuffle2x2_64_eq h0 h1 a b
    cases k
    · dsimp only
      split_ifs with g1 g2 g3 g4 g5
      · have := all2_spec (P64.chk_sseI128 c.ssse3 c.sse41 (vsx64 c .int)) h0 h1
        have e : (c.sse41 && !c.ssse3) = false := by
          have := h.sse41
          cases e1 : c.sse41 <;> simp_all
        rw [e, Bool.false_or, beq_iff_eq] at this
        refine congrArg some (Prog.chk_run (by decide) h2n (this ▸ ?_) a b)
        unfold ok2x2_64 at hok
        rw [g1] at hok
        exact hok
      · exact hN _
      · exact hV g3 (by simpa using g1) rfl
      · rfl
      · exact hZ
      · clear hok hF hV hN hZ
        cfg_absurd h
    · dsimp only
      split_ifs with g1 g2 g3 g4 g5
      · exact hF rfl g1
      · exact hN _
      · exact hV g3 (by simpa using g1) rfl
      · rfl
      · exact hZ
      · clear hok hF hV hN hZ
        cfg_absurd h
  · have hn : n = 4 := hn
    subst hn
    cases k
    · dsimp only
      rw [if_pos (show c.avx2 = true from hr)]
      have := all2_spec (P64.chk_sseI256 c.ssse3 c.sse41 (vsx64 c .int)) h0 h1
      rw [beq_iff_eq] at this
      refine congrArg some (Prog.chk_run (by decide) h2n (this ▸ ?_) a b)
      have hs : c.sse2 = true := sse_of_wide h (r := .r256) (by decide) hr
      unfold ok2x2_64 at hok
      rw [hs] at hok
      exact hok
    · exact (if_pos (show c.avx = true from hr)).trans (hF rfl (by exact sse_of_wide h (by decide) hr))
  · have hn : n = 8 := hn
    subst hn
    cases k
    · dsimp only
      rw [if_pos (show c.avx512f = true from hr), ← gather_wid2]
      have := all2_spec (P64.chk_sseI512 c.ssse3 c.sse41 (vsx64 c .int)) h0 h1
      rw [beq_iff_eq] at this
      refine congrArg some (Prog.chk_run (by decide) (by decide) (this ▸ ?_) a b)
      have hs : c.sse2 = true := sse_of_wide h (r := .r512) (by decide) hr
      unfold ok2x2_64 at hok
      rw [hs] at hok
      exact hok
    · exact (if_pos (show c.avx512f = true from hr)).trans (hF rfl (by exact sse_of_wide h (by decide) hr))

theorem shuffle1_64_eq {k : Kind} (hr : c.hasVec k 64 r = true) (hn : n = r.lanes 64)
    {s0 s1 : Nat} (h0 : s0 < 2) (h1 : s1 < 2) (a b : Vec 64 n) :
    shuffle1_64 c k r s0 s1 a b = some (gather 2 (sel2 s0 (s1 + 2)) a b) := by
  unfold shuffle1_64
  rw [if_neg (not_not.2 ⟨h0, h1⟩)]
  exact i_shuffle2x2_64_eq h hr hn (by omega) (by omega) (by unfold ok2x2_64 okSel; rw [if_pos h0]) a b

omit h in
theorem imm2_lt (imm j : Nat) : Hw.imm2 imm j < 4 := by unfold Hw.imm2; omega

theorem i_permute2_64_eq {k : Kind} (hr : c.hasVec k 64 r = true) (hn : n = r.lanes 64)
    {s0 s1 : Nat} (h0 : s0 < 2) (h1 : s1 < 2) (a : Vec 64 n) :
    i_permute2_64 c k r s0 s1 a = some (gather 2 (sel2 s0 s1) a a) := by
  unfold i_permute2_64
  rw [if_neg (not_not.2 ⟨h0, h1⟩)]
  cases r
  · have hn : n = 2 := hn
    subst hn
    have hN := fun b' => congrArg some (Prog.chk_run (by decide) (by decide) (all2_spec (P64.chk_neonP b') h0 h1) a a)
    have hX := congrArg some (Prog.chk_run (by decide) (by decide) (all2_spec P64.chk_vsxP h0 h1) a a)
    have hZ : Null.permute2 s0 s1 a = some (gather 2 (sel2 s0 s1) a a) := by
      rw [Null.permute2_eq (by decide) h0 h1]
      congr 1
      funext i
      unfold gather
      dsimp only
      rw [if_pos (sel2_lt h0 h1 _)]
      unfold sel2
      split_ifs <;> rfl
    have hI : (i_permute4_32 c false .int .r128 (s0 * 2) (s0 * 2 + 1) (s1 * 2) (s1 * 2 + 1) (a.recast 32 4)).bind
        (fun t => some (t.recast 64 2)) = some (gather 2 (sel2 s0 s1) a a) := by
      rw [i_permute4_32_eq (n := 4) (s0 := s0 * 2) (s1 := s0 * 2 + 1) (s2 := s1 * 2) (s3 := s1 * 2 + 1) h false
        (r := .r128) (k := .int) rfl rfl (by omega) (by omega) (by omega) (by omega)]
      show some _ = _
      refine congrArg some ?_
      rw [← gather_recast (w := 64) (n := 2) (v := 32) (q := 2) (m := 4) (L := 2) (by decide) (by decide) (by decide)
        rfl rfl (by decide) (sel2 s0 s1) (ex 2 (sel2 s0 s1)) (fun _ _ => rfl) a a]
      congr 1
      refine gather_congr (by decide) (fun j hj => ?_) _ _
      have hj : j < 4 := hj
      interval_cases s0 <;> interval_cases s1 <;> interval_cases j <;> rfl
    cases k
    · dsimp only
      split_ifs with g1 g2 g3 g4
      · exact hI
      · exact hN _
      · exact hX
      · exact hZ
      · clear hN hX hZ hI
        cfg_absurd h
    · dsimp only
      split_ifs with g1 g2 g3 g4 g5
      · exact congrArg some (Prog.chk_run (by decide) (by decide) (all2_spec P64.chk_pd h0 h1) a a)
      · exact hX
      · exact hN _
      · exact hI
      · exact hZ
      · clear hN hX hZ hI
        cfg_absurd h
  all_goals
    have h2n : 4 ∣ n := by subst hn; decide
    have hP : ∀ imm, (∀ j, j < 4 → Hw.imm2 imm j = sel4 s0 s1 (s0 + 2) (s1 + 2) j) →
        some (Hw.permute4x64 a imm) = some (gather 2 (sel2 s0 s1) a a) := by
      intro imm he
      rw [← gather_pair h0 h1]
      exact congrArg some (gather_congr (by decide) he a a)
    have hm : ∀ j, j < 4 → Hw.imm2 (mmShuffle (s1 + 2) (s0 + 2) s1 s0) j = sel4 s0 s1 (s0 + 2) (s1 + 2) j :=
      fun j hj => (imm2_mask4x4 (by omega) (by omega) (by omega) (by omega) hj).2
    cases k <;> dsimp only
  · rw [if_pos (show c.avx2 = true from hr)]; exact hP _ hm
  · split_ifs with g1 g2
    · refine hP _ (fun j hj => ?_)
      interval_cases s0 <;> interval_cases s1 <;> interval_cases j <;> rfl
    · refine congrArg some ?_
      funext i
      subst hn
      have hi : i.val < 4 := i.isLt
      unfold Hw.permute_pd gather
      dsimp only
      rw [if_pos (sel2_lt h0 h1 _)]
      refine congrArg a.at_ ?_
      generalize i.val = i at hi
      interval_cases s0 <;> interval_cases s1 <;> interval_cases i <;> rfl
    · exact absurd hr g2
  · rw [if_pos (show c.avx512f = true from hr)]; exact hP _ hm
  · rw [if_pos (show c.avx512f = true from hr)]
    refine congrArg some ?_
    funext i
    subst hn
    have hi : i.val < 8 := i.isLt
    unfold Hw.permute_pd gather
    dsimp only
    rw [if_pos (sel2_lt h0 h1 _)]
    refine congrArg a.at_ ?_
    generalize i.val = i at hi
    interval_cases s0 <;> interval_cases s1 <;> interval_cases i <;> rfl

/-! ## Groups of four: pairs of 128-bit registers -/

omit h in
theorem comb2_at {x y : Vec 64 2} {j : Nat} (hj : j < 4) :
    (comb2 x y).at_ j = if j < 2 then x.at_ j else y.at_ (j - 2) := by
  rw [Vec.at_lt _ hj]; rfl

omit h in
theorem comb2_split (a : Vec 64 4) : comb2 (lo2 a) (hi2 a) = a := by
  refine ext_at fun j hj => ?_
  rw [comb2_at hj]
  split_ifs with h
  · rw [Vec.at_lt _ h, Vec.at_lt _ hj]; rfl
  · rw [Vec.at_lt _ (show j - 2 < 2 by omega), Vec.at_lt _ hj]
    unfold hi2
    congr 1
    exact Fin.ext (by dsimp only; omega)

omit h in
theorem gather2_pair {f : Nat → Nat} (x y : Vec 64 2) (hf : ∀ j, f j < 4) (i : Fin 2) :
    gather 2 f x y i = (comb2 x y).at_ (f i.val) := by
  have hi := i.isLt
  rw [comb2_at (hf _)]
  unfold gather
  dsimp only
  rw [Nat.mod_eq_of_lt hi, Nat.div_eq_of_lt hi, Nat.zero_mul, Nat.zero_add, Nat.zero_add, if_pos (hf i.val)]

omit h in
theorem gather4_one {f : Nat → Nat} (x y : Vec 64 4) (hf : ∀ j, f j < 8) (i : Fin 4) :
    gather 4 f x y i = if f i.val < 4 then x.at_ (f i.val) else y.at_ (f i.val - 4) := by
  have hi := i.isLt
  unfold gather
  dsimp only
  rw [Nat.mod_eq_of_lt hi, Nat.div_eq_of_lt hi, Nat.zero_mul, Nat.zero_add, Nat.zero_add, if_pos (hf i.val)]

omit h in
theorem comb2_sel {x y : Vec 64 2} {z t : Vec 64 4} {s0 s1 s2 s3 : Nat}
    (hs : s0 < 8 ∧ s1 < 8 ∧ s2 < 8 ∧ s3 < 8)
    (hx : ∀ i : Fin 2, x i = if sel2 s0 s1 i.val < 4 then z.at_ (sel2 s0 s1 i.val) else t.at_ (sel2 s0 s1 i.val - 4))
    (hy : ∀ i : Fin 2, y i = if sel2 s2 s3 i.val < 4 then z.at_ (sel2 s2 s3 i.val) else t.at_ (sel2 s2 s3 i.val - 4)) :
    comb2 x y = gather 4 (sel4 s0 s1 s2 s3) z t := by
  funext i
  rw [gather4_one _ _ (sel4_lt hs.1 hs.2.1 hs.2.2.1 hs.2.2.2)]
  rcases i with ⟨_ | _ | _ | _ | i, hi'⟩
  · exact hx 0
  · exact hx 1
  · exact hy 0
  · exact hy 1
  · omega

theorem permute_64x4_half_eq {k : Kind} {s0 s1 : Nat} (h0 : s0 < 4) (h1 : s1 < 4) (a0 a1 : Vec 64 2) :
    ∃ res, permute_64x4_half c k s0 s1 a0 a1 = some res ∧
      ∀ i : Fin 2, res i = (comb2 a0 a1).at_ (sel2 s0 s1 i.val) := by
  have hr : c.hasVec k 64 .r128 = true := by cases k <;> rfl
  have hS := fun x0 x1 (g0 : x0 < 2) (g1 : x1 < 2) (a b : Vec 64 2) => shuffle1_64_eq h hr rfl g0 g1 a b
  have hP := fun x0 x1 (g0 : x0 < 2) (g1 : x1 < 2) (a : Vec 64 2) => i_permute2_64_eq h hr rfl g0 g1 a
  have hS00 := hS 0 0 (by decide) (by decide)
  have hS01 := hS 0 1 (by decide) (by decide)
  have hS10 := hS 1 0 (by decide) (by decide)
  have hS11 := hS 1 1 (by decide) (by decide)
  have hP00 := hP 0 0 (by decide) (by decide)
  have hP10 := hP 1 0 (by decide) (by decide)
  have hP11 := hP 1 1 (by decide) (by decide)
  have hc : ∀ j, j < 4 → (comb2 a0 a1).at_ j = if j < 2 then a0.at_ j else a1.at_ (j - 2) := fun j hj => comb2_at hj
  have hc' : ∀ j, j < 4 → (comb2 a1 a0).at_ j = if j < 2 then a1.at_ j else a0.at_ (j - 2) := fun j hj => comb2_at hj
  have hd : ∀ (x : Vec 64 2) j, j < 4 → (comb2 x x).at_ j = if j < 2 then x.at_ j else x.at_ (j - 2) := fun x j hj => comb2_at hj
  unfold permute_64x4_half
  have two : ∀ {x : Option (Vec 64 2)} {y z : Vec 64 2} {t0 t1 : Nat} (_ : t0 < 4) (_ : t1 < 4),
      x = some (gather 2 (sel2 t0 t1) y z) → (comb2 y z).at_ t0 = (comb2 a0 a1).at_ s0 →
      (comb2 y z).at_ t1 = (comb2 a0 a1).at_ s1 →
      ∃ res, x = some res ∧ ∀ i : Fin 2, res i = (comb2 a0 a1).at_ (sel2 s0 s1 i.val) := by
    intro x y z t0 t1 g0 g1 e e0 e1
    refine ⟨_, e, fun i => ?_⟩
    rw [gather2_pair _ _ (sel2_lt g0 g1)]
    rcases i with ⟨_ | _ | i, hi'⟩
    · exact e0
    · exact e1
    · omega
  have hI : ∀ x : Vec 64 2, some x = some (gather 2 (sel2 0 1) x x) := fun x => congrArg some
    (Prog.chk_run (p := .a) (by decide) (by decide) (by decide) x x)
  interval_cases s0 <;> interval_cases s1 <;> simp only [Nat.reduceMul, Nat.reduceAdd]
  · exact two (by decide) (by decide) (hP00 _) (by simp [hc, hd]) (by simp [hc, hd])
  · exact two (by decide) (by decide) (hI _) (by simp [hc, hd]) (by simp [hc, hd])
  · exact two (by decide) (by decide) (hS00 _ _) rfl rfl
  · exact two (by decide) (by decide) (hS01 _ _) rfl rfl
  · exact two (by decide) (by decide) (hP10 _) (by simp [hc, hd]) (by simp [hc, hd])
  · exact two (by decide) (by decide) (hP11 _) (by simp [hc, hd]) (by simp [hc, hd])
  · exact two (by decide) (by decide) (hS10 _ _) rfl rfl
  · exact two (by decide) (by decide) (hS11 _ _) rfl rfl
  · exact two (by decide) (by decide) (hS00 _ _) (by simp [hc, hc']) (by simp [hc, hc'])
  · exact two (by decide) (by decide) (hS01 _ _) (by simp [hc, hc']) (by simp [hc, hc'])
  · exact two (by decide) (by decide) (hP00 _) (by simp [hc, hd]) (by simp [hc, hd])
  · exact two (by decide) (by decide) (hI _) (by simp [hc, hd]) (by simp [hc, hd])
  · exact two (by decide) (by decide) (hS10 _ _) (by simp [hc, hc']) (by simp [hc, hc'])
  · exact two (by decide) (by decide) (hS11 _ _) (by simp [hc, hc']) (by simp [hc, hc'])
  · exact two (by decide) (by decide) (hP10 _) (by simp [hc, hd]) (by simp [hc, hd])
  · exact two (by decide) (by decide) (hP11 _) (by simp [hc, hd]) (by simp [hc, hd])

theorem shuffle_64x4_half_eq {k : Kind} {s0 s1 : Nat} (h0 : s0 < 8) (h1 : s1 < 8) (a0 a1 b0 b1 : Vec 64 2) :
    ∃ res, shuffle_64x4_half c k s0 s1 a0 a1 b0 b1 = some res ∧
      ∀ i : Fin 2, res i = if sel2 s0 s1 i.val < 4 then (comb2 a0 a1).at_ (sel2 s0 s1 i.val)
        else (comb2 b0 b1).at_ (sel2 s0 s1 i.val - 4) := by
  have hr : c.hasVec k 64 .r128 = true := by cases k <;> rfl
  unfold shuffle_64x4_half
  dsimp only
  rw [i_shuffle2x2_64_eq (n := 2) (s0 := s0 % 2) (s1 := s1 % 2 + 2) h hr rfl (by omega) (by omega) (by
    unfold ok2x2_64 okSel; rw [if_pos (Nat.mod_lt _ (by decide))])]
  refine ⟨_, rfl, fun i => ?_⟩
  rw [gather2_pair _ _ (sel2_lt (by omega) (by omega)), comb2_at (sel2_lt (by omega) (by omega) _)]
  rcases i with ⟨_ | _ | i, hi'⟩
  · simp only [sel2, if_true]
    rw [if_pos (Nat.mod_lt _ (by decide))]
    split_ifs <;> (try rw [comb2_at (by omega)]) <;> (try rw [if_pos (by omega)]) <;> (try rw [if_neg (by omega)]) <;>
      first | omega | (congr 1; omega)
  · simp only [sel2, Nat.zero_add, Nat.one_ne_zero, if_false]
    rw [if_neg (by omega)]
    split_ifs <;> (try rw [comb2_at (by omega)]) <;> (try rw [if_pos (by omega)]) <;> (try rw [if_neg (by omega)]) <;>
      first | omega | (congr 1; omega)
  · omega

/-- Two registers holding one group of four, in memory order. -/
theorem i_permute4_64_pair_eq {k : Kind} {s0 s1 s2 s3 : Nat} (h0 : s0 < 4) (h1 : s1 < 4) (h2 : s2 < 4)
    (h3 : s3 < 4) (a0 a1 : Vec 64 2) :
    ∃ r0 r1, i_permute4_64_pair c k s0 s1 s2 s3 a0 a1 = some (r0, r1) ∧
      comb2 r0 r1 = gather 4 (sel4 s0 s1 s2 s3) (comb2 a0 a1) (comb2 a0 a1) := by
  have hs : s0 < 8 ∧ s1 < 8 ∧ s2 < 8 ∧ s3 < 8 := by omega
  have hE : ∃ r0 r1, (do
      let r0 ← permute_64x4_half c k s0 s1 a0 a1
      let r1 ← permute_64x4_half c k s2 s3 a0 a1
      some (r0, r1)) = some (r0, r1) ∧
      comb2 r0 r1 = gather 4 (sel4 s0 s1 s2 s3) (comb2 a0 a1) (comb2 a0 a1) := by
    obtain ⟨r0, e0, p0⟩ := permute_64x4_half_eq h (k := k) h0 h1 a0 a1
    obtain ⟨r1, e1, p1⟩ := permute_64x4_half_eq h (k := k) h2 h3 a0 a1
    refine ⟨r0, r1, by rw [e0, e1]; rfl, comb2_sel hs (fun i => ?_) (fun i => ?_)⟩
    · rw [p0, if_pos (sel2_lt h0 h1 _)]
    · rw [p1, if_pos (sel2_lt h2 h3 _)]
  have hZ : ∃ r0 r1, Null.permute4_64 s0 s1 s2 s3 a0 a1 = some (r0, r1) ∧
      comb2 r0 r1 = gather 4 (sel4 s0 s1 s2 s3) (comb2 a0 a1) (comb2 a0 a1) := by
    have e : ∀ s, s < 4 → rd (if s / 2 = 0 then a0 else a1) (s % 2) = some ((comb2 a0 a1).at_ s) := by
      intro s hs
      rw [rd_lt _ (Nat.mod_lt _ (by decide)), comb2_at hs]
      interval_cases s <;> rfl
    have e2 : ∀ {x0 x1 : BitVec 64}, ret (fun i : Fin 2 => if i.val = 1 then some x1 else if i.val = 0 then some x0
        else unset i) = some (fun i => if i.val = 0 then x0 else x1) := by
      intro x0 x1
      apply ret_eq
      intro i
      rcases i with ⟨_ | _ | i, hi'⟩ <;> first | omega | rfl
    unfold Null.permute4_64
    simp only [e s0 h0, e s1 h1, e s2 h2, e s3 h3, Option.bind_eq_bind, Option.bind_some,
      wr_lt _ (show 0 < 2 by decide), wr_lt _ (show 1 < 2 by decide), e2]
    refine ⟨_, _, rfl, comb2_sel hs (fun i => ?_) (fun i => ?_)⟩
    · rw [if_pos (sel2_lt h0 h1 _)]; unfold sel2; split_ifs <;> rfl
    · rw [if_pos (sel2_lt h2 h3 _)]; unfold sel2; split_ifs <;> rfl
  unfold i_permute4_64_pair
  rw [if_neg (not_not.2 ⟨h0, h1, h2, h3⟩)]
  cases k <;> dsimp only <;> split_ifs with g1 g2 <;> first
    | exact hE
    | exact hZ
    | (clear hE hZ; cfg_absurd h)

/-! ## Groups of four: native registers -/

theorem i_permute4_64_eq {k : Kind} (hr : c.hasVec k 64 r = true) (hr' : r ≠ .r128)
    {s0 s1 s2 s3 : Nat} (h0 : s0 < 4) (h1 : s1 < 4) (h2 : s2 < 4) (h3 : s3 < 4) (a : Vec 64 (r.lanes 64)) :
    i_permute4_64 c k r s0 s1 s2 s3 a = some (gather 4 (sel4 s0 s1 s2 s3) a a) := by
  have hP : ∀ {m} (x : Vec 64 m), some (Hw.permute4x64 x (mmShuffle s3 s2 s1 s0)) =
      some (gather 4 (sel4 s0 s1 s2 s3) x x) := fun x =>
    congrArg some (gather_congr (by decide) (fun j hj => (imm2_mask4x4 h0 h1 h2 h3 hj).2) x x)
  unfold i_permute4_64
  rw [if_neg (not_not.2 ⟨h0, h1, h2, h3⟩)]
  cases r
  · exact absurd rfl hr'
  · dsimp only
    split_ifs with g1
    · exact hP a
    · obtain ⟨r0, e0, p0⟩ := permute_64x4_half_eq h (k := k) h0 h1 (lo2 a) (hi2 a)
      obtain ⟨r1, e1, p1⟩ := permute_64x4_half_eq h (k := k) h2 h3 (lo2 a) (hi2 a)
      rw [show comb2 (lo2 a) (hi2 a) = a from comb2_split a] at p0 p1
      rw [e0, e1]
      refine congrArg some (comb2_sel ⟨by omega, by omega, by omega, by omega⟩ (fun i => ?_) (fun i => ?_))
      · rw [p0, if_pos (sel2_lt h0 h1 _)]
      · rw [p1, if_pos (sel2_lt h2 h3 _)]
  · dsimp only
    rw [if_pos (by cases k <;> exact hr)]
    exact hP a

omit h in
/-- The instantiations of `shuffle4x2` on 64-bit lanes of a native register that select correctly. -/
def ok4x2_64 (c : Cfg) (k : Kind) (r : Reg) (s0 s1 s2 s3 : Nat) : Bool :=
  match k, r with
  | .flt, .r256 =>
    if c.avx512f then
      Sse64.zipOrBlend s0 s1 s2 s3 != 0 || (decide (s0 < 4) && decide (s1 < 4) && decide (s2 < 4) && decide (s3 < 4))
    else c.avx2 || Sse64.okAvx s0 s1 s2 s3
  | _, _ => true

omit h in
theorem gather_wid4 {w : Nat} {f : Nat → Nat} (a b : Vec w n) :
    gather 8 (wid 4 8 f) a b = gather 4 f a b :=
  ((IsG.widen (L := 4) (m := 2) (by decide) (by decide) (a := a) (b := b) (f := f) rfl).eq (by decide)
    fun _ _ => rfl).symm

omit h in
theorem permx2_cast_eq {m f : Nat → Nat} (hf : ∀ j, f j < 8) (hm : ∀ j, m j = if f j < 4 then f j else f j + 4)
    (a b : Vec 64 4) : Sse64.permx2_cast m a b = some (gather 4 f a b) := by
  unfold Sse64.permx2_cast
  rw [lanesM_eq_some]
  intro i
  have := hf i.val
  rw [gather4_one _ _ hf]
  dsimp only
  rw [hm]
  by_cases h : f i.val < 4
  · rw [if_pos h, if_pos h, Nat.mod_eq_of_lt (by omega), if_pos h]
  · rw [if_neg h, if_neg h, Nat.mod_eq_of_lt (by omega), if_neg (by omega), if_pos (by omega)]
    rfl

omit h in
theorem zip_of_impl {b b' : Bool} {s0 s1 s2 s3 : Nat} (g : Sse64.implF b b' s0 s1 s2 s3 = 8) :
    Sse64.zipOrBlend s0 s1 s2 s3 = 0 := by
  unfold Sse64.implF at g
  dsimp only at g
  by_contra hz
  rw [if_pos hz] at g
  unfold Sse64.zipOrBlend at g
  split_ifs at g <;> omega

theorem i_shuffle4x2_64_eq {k : Kind} (hr : c.hasVec k 64 r = true) (hr' : r ≠ .r128)
    {s0 s1 s2 s3 : Nat} (h0 : s0 < 8) (h1 : s1 < 8) (h2 : s2 < 8) (h3 : s3 < 8)
    (hok : ok4x2_64 c k r s0 s1 s2 s3 = true) (a b : Vec 64 (r.lanes 64)) :
    i_shuffle4x2_64 c k r s0 s1 s2 s3 a b = some (gather 4 (sel4 s0 s1 s2 s3) a b) := by
  unfold i_shuffle4x2_64
  rw [if_neg (not_not.2 ⟨h0, h1, h2, h3⟩), if_neg (by simp [hr, hr'])]
  cases r
  · exact absurd rfl hr'
  · change Vec 64 4 at a b
    cases k
    · dsimp only
      change (_ : Option (Vec 64 4)) = _
      cases e : c.avx512f
      · have := all4_spec Sse64.chk_i_avx2 h0 h1 h2 h3
        rw [Bool.and_eq_true, bne_iff_ne] at this
        refine (if_neg this.1).trans ?_
        exact congrArg some (Prog.chk_run (by decide) (by decide) this.2 a b)
      · by_cases g1 : Sse64.implI true s0 s1 s2 s3 = 8
        on_goal 1 => refine (if_pos g1).trans ?_
        on_goal 1 => by_cases g2 : c.avx512vl = true
        · refine (if_pos g2).trans ?_
          exact congrArg some (Prog.chk_run (by decide) (by decide) (all4_spec Sse64.chk_p256 h0 h1 h2 h3) a b)
        · refine (if_neg g2).trans ?_
          refine permx2_cast_eq (sel4_lt h0 h1 h2 h3) (fun j => ?_) a b
          unfold sel4 Sse64.p8
          split_ifs <;> rfl
        · refine (if_neg g1).trans ?_
          have := all4_spec Sse64.chk_i_512 h0 h1 h2 h3
          rw [Bool.or_eq_true, beq_iff_eq, Bool.and_eq_true] at this
          exact congrArg some (Prog.chk_run (by decide) (by decide) (this.resolve_left g1).1 a b)
    · dsimp only
      change (_ : Option (Vec 64 4)) = _
      have hok' : (if c.avx512f then Sse64.zipOrBlend s0 s1 s2 s3 != 0 ||
          (decide (s0 < 4) && decide (s1 < 4) && decide (s2 < 4) && decide (s3 < 4))
          else c.avx2 || Sse64.okAvx s0 s1 s2 s3) = true := hok
      cases e : c.avx512f
      · rw [e] at hok'
        cases e2 : c.avx2
        · rw [e2] at hok'
          have hok' : Sse64.okAvx s0 s1 s2 s3 = true := by simpa using hok'
          have := all4_spec Sse64.chk_f_avx h0 h1 h2 h3
          have g1 : Sse64.implF false false s0 s1 s2 s3 ≠ 8 := by
            intro g1
            unfold Sse64.implF Sse64.zipOrBlend at g1
            dsimp only at g1
            split_ifs at g1 <;> omega
          refine (if_neg g1).trans ?_
          by_cases g2 : Sse64.implF false false s0 s1 s2 s3 = 10
          · refine (if_pos g2).trans ?_
            obtain ⟨r0, e0, p0⟩ := shuffle_64x4_half_eq h (k := .flt) h0 h1 (lo2 a) (hi2 a) (lo2 b) (hi2 b)
            obtain ⟨r1, e1, p1⟩ := shuffle_64x4_half_eq h (k := .flt) h2 h3 (lo2 a) (hi2 a) (lo2 b) (hi2 b)
            rw [show comb2 (lo2 a) (hi2 a) = a from comb2_split a, show comb2 (lo2 b) (hi2 b) = b from comb2_split b] at p0 p1
            rw [e0, e1]
            exact congrArg some (comb2_sel ⟨h0, h1, h2, h3⟩ p0 p1)
          · refine (if_neg g2).trans ?_
            rw [Bool.or_eq_true, beq_iff_eq, beq_iff_eq, hok'] at this
            exact congrArg some (Prog.chk_run (by decide) (by decide) (this.resolve_left g2).symm a b)
        · have := all4_spec Sse64.chk_f_avx2 h0 h1 h2 h3
          rw [Bool.and_eq_true, Bool.and_eq_true, bne_iff_ne, bne_iff_ne] at this
          refine (if_neg this.1.1).trans ((if_neg this.1.2).trans ?_)
          exact congrArg some (Prog.chk_run (by decide) (by decide) this.2 a b)
      · have := all4_spec (Sse64.chk_f_512 c.avx2) h0 h1 h2 h3
        rw [Bool.or_eq_true, beq_iff_eq, Bool.and_eq_true, Bool.and_eq_true, bne_iff_ne] at this
        by_cases g1 : Sse64.implF true c.avx2 s0 s1 s2 s3 = 8
        · refine (if_pos g1).trans ?_
          rw [e, if_pos rfl, zip_of_impl g1] at hok'
          simp only [bne_self_eq_false, Bool.false_or, Bool.and_eq_true, decide_eq_true_eq] at hok'
          obtain ⟨⟨⟨k0, k1⟩, k2⟩, k3⟩ := hok'
          refine permx2_cast_eq (sel4_lt h0 h1 h2 h3) (fun j => ?_) a b
          rw [if_pos (sel4_lt k0 k1 k2 k3 j)]
        · refine (if_neg g1).trans ((if_neg (this.resolve_left g1).1.1).trans ?_)
          exact congrArg some (Prog.chk_run (by decide) (by decide) (this.resolve_left g1).1.2 a b)
  · have h5 : c.avx512f = true := by cases k <;> exact hr
    have hP := congrArg some ((Prog.chk_run (by decide) (by decide) (all4_spec Sse64.chk_p512 h0 h1 h2 h3) a b).trans
      (gather_wid4 (n := 8) a b))
    cases k
    · dsimp only
      rw [h5]
      split_ifs with g1
      · exact hP
      · have := all4_spec Sse64.chk_i_512 h0 h1 h2 h3
        rw [Bool.or_eq_true, beq_iff_eq, Bool.and_eq_true] at this
        exact congrArg some (Prog.chk_run (by decide) (by decide) (this.resolve_left g1).2 a b)
    · dsimp only
      rw [h5]
      split_ifs with g1
      · exact hP
      · have := all4_spec (Sse64.chk_f_512 c.avx2) h0 h1 h2 h3
        rw [Bool.or_eq_true, beq_iff_eq, Bool.and_eq_true, Bool.and_eq_true, bne_iff_ne] at this
        exact congrArg some (Prog.chk_run (by decide) (by decide) (this.resolve_left g1).2 a b)

/-! ## The property -/

omit h in
theorem lanes64_dvd (r : Reg) : 2 ∣ r.lanes 64 := by cases r <;> decide

omit h in
theorem lanes64_dvd4 (hr' : r ≠ .r128) : 4 ∣ r.lanes 64 := by
  cases r
  · exact absurd rfl hr'
  · decide
  · decide

/-- C18 (`permute2`, 64-bit elements). -/
theorem C18_permute2_64 {k : Kind} (hr : c.hasVec k 64 r = true)
    {s0 s1 : Nat} (h0 : s0 < 2) (h1 : s1 < 2) {K : Nat} (a d : Fin K → Vec 64 (r.lanes 64)) :
    ∃ res, Arr.apply1 (i_permute2_64 c k r s0 s1) a 0 d = some res ∧
      Picks 2 (fun j => if j = 0 then s0 else s1)
        (Arr.flat a : Vec 64 (K * r.lanes 64)) (Arr.flat a) (Arr.flat res) := by
  obtain ⟨res, e1, e2⟩ := long1 (lanes64_dvd r) (by decide) (i_permute2_64_eq h hr rfl h0 h1) a d
  exact ⟨res, e1, e2 ▸ picks_gather (fun j _ => sel2_lt (by omega) (by omega) j) _ _⟩

/-- C18 (`shuffle1<s0,s1>`, 64-bit elements): in every pair, the first element comes from `a`, the second
from `b`. -/
theorem C18_shuffle1_64 {k : Kind} (hr : c.hasVec k 64 r = true)
    {s0 s1 : Nat} (h0 : s0 < 2) (h1 : s1 < 2) {K : Nat} (a b d : Fin K → Vec 64 (r.lanes 64)) :
    ∃ res, Arr.apply2 (shuffle1_64 c k r s0 s1) a b 0 d = some res ∧
      ∀ q, q * 2 + 2 ≤ K * r.lanes 64 →
        let R : Vec 64 (K * r.lanes 64) := Arr.flat res
        let A : Vec 64 (K * r.lanes 64) := Arr.flat a
        let B : Vec 64 (K * r.lanes 64) := Arr.flat b
        R.at_ (q * 2) = A.at_ (q * 2 + s0) ∧ R.at_ (q * 2 + 1) = B.at_ (q * 2 + s1) := by
  obtain ⟨res, e1, e2⟩ := long2 (lanes64_dvd r) (by decide) (shuffle1_64_eq h hr rfl h0 h1) a b d
  refine ⟨res, e1, fun q hq => ?_⟩
  have p := picks_gather (L := 2) (f := sel2 s0 (s1 + 2)) (fun j _ => sel2_lt (by omega) (by omega) j)
    (Arr.flat a : Vec 64 (K * r.lanes 64)) (Arr.flat b)
  rw [← e2] at p
  have p0 := p q 0 (by decide) (by omega)
  have p1 := p q 1 (by decide) (by omega)
  simp only [sel2, if_true, Nat.add_zero, h0, Nat.one_ne_zero, if_false, Nat.add_sub_cancel,
    if_neg (show ¬ s1 + 2 < 2 by omega)] at p0 p1
  exact ⟨p0, p1⟩

/-- C18 (`shuffle2x2`, 64-bit elements): correct for the instantiations listed in `ok2x2_64`; missing: the
others, which are wrong (`C18_shuffle2x2_64_wrong`). -/
theorem C18_shuffle2x2_64_partial {k : Kind} (hr : c.hasVec k 64 r = true)
    {s0 s1 : Nat} (h0 : s0 < 4) (h1 : s1 < 4) (hok : ok2x2_64 c k r s0 s1 = true) {K : Nat}
    (a b d : Fin K → Vec 64 (r.lanes 64)) :
    ∃ res, Arr.apply2 (i_shuffle2x2_64 c k r s0 s1) a b 0 d = some res ∧
      Picks 2 (fun j => if j = 0 then s0 else s1)
        (Arr.flat a : Vec 64 (K * r.lanes 64)) (Arr.flat b) (Arr.flat res) := by
  obtain ⟨res, e1, e2⟩ := long2 (lanes64_dvd r) (by decide) (i_shuffle2x2_64_eq h hr rfl h0 h1 hok) a b d
  exact ⟨res, e1, e2 ▸ picks_gather (fun j _ => sel2_lt (by omega) (by omega) j) _ _⟩

omit h in
/-- `x` differs from the documented result somewhere. -/
def differs {w N : Nat} (L : Nat) (f : Nat → Nat) (a b x : Vec w N) : Bool :=
  (List.range N).any fun i => (x.at_ i).toNat != ((gather L f a b).at_ i).toNat

omit h in
theorem not_picks {w N L : Nat} {f : Nat → Nat} (hL : 0 < L) (hf : ∀ j, j < L → f j < 2 * L) {a b x : Vec w N}
    (hd : differs L f a b x = true) : ¬ Picks L f a b x := by
  intro hp
  unfold differs at hd
  rw [List.any_eq_true] at hd
  obtain ⟨i, hi, hne⟩ := hd
  rw [List.mem_range] at hi
  have hm := Nat.mod_lt i hL
  have p := hp (i / L) (i % L) hm (by rw [Nat.div_add_mod']; exact hi)
  have q := picks_gather hf a b (i / L) (i % L) hm (by rw [Nat.div_add_mod']; exact hi)
  rw [Nat.div_add_mod'] at p q
  rw [p.trans q.symm] at hne
  simp at hne

/-- Test vectors whose 32-bit halves are all different. -/
def iotaC (n : Nat) : Vec 64 n := fun i => BitVec.ofNat 64 ((i.val + 1) * (2 ^ 33 + 1))
/-- Test vectors whose 32-bit halves are all different. -/
def iotaD (n : Nat) : Vec 64 n := fun i => BitVec.ofNat 64 ((i.val + 101) * (2 ^ 33 + 1))

namespace P64

omit h in
theorem wrong_sseF : ∀ b' r, all2 4 (fun s0 s1 => okSel true false b' false .flt r s0 s1 ||
      differs 2 (sel2 s0 s1) (iotaC _) (iotaD _) ((sseF b' r s0 s1).run 2 (iotaC (r.lanes 64)) (iotaD _))) = true := by
  intro b' r; cases b' <;> cases r <;> decide +kernel

omit h in
theorem wrong_sseI128 : ∀ b b', all2 4 (fun s0 s1 => (b' && !b) || okSel true b b' false .int .r128 s0 s1 ||
      differs 2 (sel2 s0 s1) (iotaC _) (iotaD _) ((sseI128 b b' s0 s1).run 2 (iotaC 2) (iotaD _))) = true := by
  intro b b'; cases b <;> cases b' <;> decide +kernel

omit h in
theorem okSel_v : ∀ k b b' v s0 s1 r, okSel true b b' v k r s0 s1 = okSel true b b' false k r s0 s1 := by
  intro k b b' v s0 s1 r; rfl

omit h in
theorem okSel_flt : ∀ b b' s0 s1 r, okSel true b b' false .flt r s0 s1 = okSel true false b' false .flt r s0 s1 := by
  intro b b' s0 s1 r; cases b <;> rfl

omit h in
theorem okSel_256 : ∀ b b' s0 s1 r, r ≠ .r128 →
    okSel true b b' false .int r s0 s1 = okSel true false false false .int r s0 s1 := by
  intro b b' s0 s1 r hr'; cases r <;> first | exact absurd rfl hr' | (cases b <;> cases b' <;> rfl)

omit h in
theorem wrong_sseI256 : all2 4 (fun s0 s1 => okSel true false false false .int .r256 s0 s1 ||
      differs 2 (sel2 s0 s1) (iotaC _) (iotaD _) ((sseI256 s0 s1).run 2 (iotaC 4) (iotaD _))) = true := by
  decide +kernel

omit h in
theorem wrong_sseI512 : all2 4 (fun s0 s1 => okSel true false false false .int .r512 s0 s1 ||
      differs 2 (sel2 s0 s1) (iotaC _) (iotaD _) ((sseI512 s0 s1).run 4 (iotaC 8) (iotaD _))) = true := by
  decide +kernel

omit h in
theorem wrong_vsx : ∀ b b' k, all2 4 (fun s0 s1 => okSel false b b' true k .r128 s0 s1 ||
      differs 2 (sel2 s0 s1) (iotaC _) (iotaD _) ((vsx s0 s1).run 2 (iotaC 2) (iotaD _))) = true := by
  intro b b' k; cases b <;> cases b' <;> cases k <;> decide +kernel

end P64

/-- The full C18 claim is false for the remaining instantiations of the 64-bit `shuffle2x2`. -/
theorem C18_shuffle2x2_64_wrong {k : Kind} (hr : c.hasVec k 64 r = true)
    {s0 s1 : Nat} (h0 : s0 < 4) (h1 : s1 < 4) (hok : ok2x2_64 c k r s0 s1 = false) :
    ∃ (a b res : Vec 64 (r.lanes 64)), i_shuffle2x2_64 c k r s0 s1 a b = some res ∧
      ¬ Picks 2 (fun j => if j = 0 then s0 else s1) a b res := by
  have hf : ∀ j, j < 2 → sel2 s0 s1 j < 2 * 2 := fun j _ => sel2_lt (by omega) (by omega) j
  refine ⟨iotaC _, iotaD _, ?_⟩
  unfold ok2x2_64 at hok
  unfold i_shuffle2x2_64
  rw [if_neg (not_not.2 ⟨h0, h1⟩)]
  cases hs : c.sse2
  · rw [hs] at hok
    have hr1 : r = .r128 := by
      by_contra hr'
      rw [sse_of_wide h hr' hr] at hs
      cases hs
    subst hr1
    have hv : vsx64 c k = true := by
      unfold okSel at hok
      by_contra hv
      rw [Bool.not_eq_true] at hv
      rw [hv] at hok
      simp at hok
    rw [hv] at hok
    have hw := all2_spec (P64.wrong_vsx c.ssse3 c.sse41 k) h0 h1
    rw [hok, Bool.false_or] at hw
    refine ⟨_, ?_, not_picks (by decide) hf hw⟩
    have ha : c.altivec = true := h.vsx206 (by cases k; exact h.vsx207 hv; exact hv)
    have hn : c.neon = false := by
      cases hn : c.neon
      · rfl
      · have := (h.excl.2.1 hn).1
        rw [ha] at this
        cases this
    cases k
    · dsimp only
      rw [hn, if_neg (by decide), if_neg (by decide), if_pos (show c.vsx207 = true from hv)]
      rfl
    · dsimp only
      rw [if_neg (by decide), if_neg (by simp [Cfg.neon64, hn]), if_pos (show c.vsx206 = true from hv)]
      rfl
  · rw [hs] at hok
    cases k
    · cases r
      · have hw := all2_spec (P64.wrong_sseI128 c.ssse3 c.sse41) h0 h1
        have e : (c.sse41 && !c.ssse3) = false := by
          have := h.sse41
          cases e1 : c.sse41 <;> simp_all
        rw [P64.okSel_v] at hok
        rw [e, hok, Bool.false_or, Bool.false_or] at hw
        exact ⟨_, if_pos rfl, not_picks (by decide) hf hw⟩
      · have hw := all2_spec P64.wrong_sseI256 h0 h1
        rw [P64.okSel_v, P64.okSel_256 _ _ _ _ _ (by decide)] at hok
        rw [hok, Bool.false_or] at hw
        exact ⟨_, if_pos hr, not_picks (by decide) hf hw⟩
      · have hw := all2_spec P64.wrong_sseI512 h0 h1
        rw [P64.okSel_v, P64.okSel_256 _ _ _ _ _ (by decide)] at hok
        rw [hok, Bool.false_or] at hw
        exact ⟨_, if_pos hr, not_picks (by decide) hf hw⟩
    · have hw := all2_spec (P64.wrong_sseF c.sse41 r) h0 h1
      rw [P64.okSel_v, P64.okSel_flt] at hok
      rw [hok, Bool.false_or] at hw
      refine ⟨_, ?_, not_picks (by decide) hf hw⟩
      cases r
      · exact if_pos rfl
      · exact if_pos hr
      · exact if_pos hr

/-- C18 (`permute4`, 64-bit elements, native 256-bit or 512-bit registers). -/
theorem C18_permute4_64 {k : Kind} (hr : c.hasVec k 64 r = true) (hr' : r ≠ .r128)
    {s0 s1 s2 s3 : Nat} (h0 : s0 < 4) (h1 : s1 < 4) (h2 : s2 < 4) (h3 : s3 < 4) {K : Nat}
    (a d : Fin K → Vec 64 (r.lanes 64)) :
    ∃ res, Arr.apply1 (i_permute4_64 c k r s0 s1 s2 s3) a 0 d = some res ∧
      Picks 4 (fun j => if j = 0 then s0 else if j = 1 then s1 else if j = 2 then s2 else s3)
        (Arr.flat a : Vec 64 (K * r.lanes 64)) (Arr.flat a) (Arr.flat res) := by
  obtain ⟨res, e1, e2⟩ := long1 (lanes64_dvd4 hr') (by decide)
    (i_permute4_64_eq h hr hr' h0 h1 h2 h3) a d
  exact ⟨res, e1, e2 ▸ picks_gather (fun j _ => sel4_lt (by omega) (by omega) (by omega) (by omega) j) _ _⟩

/-- C18 (`permute4` on a four-element vector of 64-bit elements held in two 128-bit registers). -/
theorem C18_permute4_64_pair {k : Kind} {s0 s1 s2 s3 : Nat} (h0 : s0 < 4) (h1 : s1 < 4) (h2 : s2 < 4)
    (h3 : s3 < 4) (a0 a1 : Vec 64 2) :
    ∃ r0 r1, i_permute4_64_pair c k s0 s1 s2 s3 a0 a1 = some (r0, r1) ∧
      Picks 4 (fun j => if j = 0 then s0 else if j = 1 then s1 else if j = 2 then s2 else s3)
        (comb2 a0 a1) (comb2 a0 a1) (comb2 r0 r1) := by
  obtain ⟨r0, r1, e1, e2⟩ := i_permute4_64_pair_eq h (k := k) h0 h1 h2 h3 a0 a1
  exact ⟨r0, r1, e1, e2 ▸ picks_gather (fun j _ => sel4_lt (by omega) (by omega) (by omega) (by omega) j) _ _⟩

/-- C18 (`shuffle4x2`, 64-bit elements, native registers): correct for all integer instantiations, for all
`float64` ones on AVX2 without AVX-512 and on 512-bit registers; missing: the `float64x4` instantiations
excluded by `ok4x2_64` (`C18_shuffle4x2_64_wrong`, `C18_shuffle4x2_64_undefined`). -/
theorem C18_shuffle4x2_64_partial {k : Kind} (hr : c.hasVec k 64 r = true) (hr' : r ≠ .r128)
    {s0 s1 s2 s3 : Nat} (h0 : s0 < 8) (h1 : s1 < 8) (h2 : s2 < 8) (h3 : s3 < 8)
    (hok : ok4x2_64 c k r s0 s1 s2 s3 = true) {K : Nat} (a b d : Fin K → Vec 64 (r.lanes 64)) :
    ∃ res, Arr.apply2 (i_shuffle4x2_64 c k r s0 s1 s2 s3) a b 0 d = some res ∧
      Picks 4 (fun j => if j = 0 then s0 else if j = 1 then s1 else if j = 2 then s2 else s3)
        (Arr.flat a : Vec 64 (K * r.lanes 64)) (Arr.flat b) (Arr.flat res) := by
  obtain ⟨res, e1, e2⟩ := long2 (lanes64_dvd4 hr') (by decide)
    (i_shuffle4x2_64_eq h hr hr' h0 h1 h2 h3 hok) a b d
  exact ⟨res, e1, e2 ▸ picks_gather (fun j _ => sel4_lt (by omega) (by omega) (by omega) (by omega) j) _ _⟩

omit h in
theorem Sse64.wrong_avx : all4 8 (fun s0 s1 s2 s3 => okAvx s0 s1 s2 s3 ||
    (implF false false s0 s1 s2 s3 == 7 && differs 4 (sel4 s0 s1 s2 s3) (iotaC _) (iotaD _)
      ((runF 7 .r256 s0 s1 s2 s3).run 4 (iotaC 4) (iotaD _)))) = true := by decide +kernel

/-- On AVX without AVX2 the excluded `float64x4` instantiations return wrong elements (the arguments of the
immediate are swapped, /repo/simdpp/detail/shuffle/sse_float64_4x2.h:160-180). -/
theorem C18_shuffle4x2_64_wrong (ha : c.avx = true) (ha2 : c.avx2 = false)
    {s0 s1 s2 s3 : Nat} (h0 : s0 < 8) (h1 : s1 < 8) (h2 : s2 < 8) (h3 : s3 < 8)
    (hok : ok4x2_64 c .flt .r256 s0 s1 s2 s3 = false) :
    ∃ (a b res : Vec 64 4), i_shuffle4x2_64 c .flt .r256 s0 s1 s2 s3 a b = some res ∧
      ¬ Picks 4 (fun j => if j = 0 then s0 else if j = 1 then s1 else if j = 2 then s2 else s3) a b res := by
  have h5 : c.avx512f = false := by
    cases e : c.avx512f
    · rfl
    · rw [h.avx512f e] at ha2; cases ha2
  have hok : (if c.avx512f then Sse64.zipOrBlend s0 s1 s2 s3 != 0 ||
      (decide (s0 < 4) && decide (s1 < 4) && decide (s2 < 4) && decide (s3 < 4))
      else c.avx2 || Sse64.okAvx s0 s1 s2 s3) = false := hok
  rw [h5, ha2] at hok
  have hok : Sse64.okAvx s0 s1 s2 s3 = false := by simpa using hok
  have hw := all4_spec Sse64.wrong_avx h0 h1 h2 h3
  rw [hok, Bool.false_or, Bool.and_eq_true, beq_iff_eq] at hw
  refine ⟨iotaC _, iotaD _, _, ?_, not_picks (by decide) (fun j _ => sel4_lt h0 h1 h2 h3 j) hw.2⟩
  unfold i_shuffle4x2_64
  rw [if_neg (not_not.2 ⟨h0, h1, h2, h3⟩), if_neg (by simp [Cfg.hasVec, ha])]
  dsimp only
  rw [h5, ha2, hw.1]
  rfl

/-- With AVX-512F the excluded `float64x4` instantiations read undefined upper lanes of a widened register
(/repo/simdpp/detail/shuffle/sse_float64_4x2.h:192-197): no result is determined. -/
theorem C18_shuffle4x2_64_undefined (h5 : c.avx512f = true)
    {s0 s1 s2 s3 : Nat} (h0 : s0 < 8) (h1 : s1 < 8) (h2 : s2 < 8) (h3 : s3 < 8)
    (hok : ok4x2_64 c .flt .r256 s0 s1 s2 s3 = false) (a b : Vec 64 4) :
    i_shuffle4x2_64 c .flt .r256 s0 s1 s2 s3 a b = none := by
  have ha : c.avx = true := h.avx2 (h.avx512f h5) |> fun x => x
  have hok : (if c.avx512f then Sse64.zipOrBlend s0 s1 s2 s3 != 0 ||
      (decide (s0 < 4) && decide (s1 < 4) && decide (s2 < 4) && decide (s3 < 4))
      else c.avx2 || Sse64.okAvx s0 s1 s2 s3) = false := hok
  rw [h5, if_pos rfl, Bool.or_eq_false_iff] at hok
  obtain ⟨hz, hs⟩ := hok
  have hz : Sse64.zipOrBlend s0 s1 s2 s3 = 0 := by simpa using hz
  unfold i_shuffle4x2_64
  rw [if_neg (not_not.2 ⟨h0, h1, h2, h3⟩), if_neg (by simp [Cfg.hasVec, ha])]
  dsimp only
  have hi : Sse64.implF c.avx512f c.avx2 s0 s1 s2 s3 = 8 := by
    unfold Sse64.implF
    dsimp only
    rw [hz, h5]
    rfl
  refine (if_pos hi).trans ?_
  rcases he : Sse64.permx2_cast (sel4 s0 s1 s2 s3) a b with _ | x
  · rfl
  · exfalso
    have key : ∀ i : Fin 4, sel4 s0 s1 s2 s3 i.val < 4 := by
      intro i
      have e := lanesM_eq_some.1 he i
      have hl := sel4_lt h0 h1 h2 h3 i.val
      dsimp only at e
      rw [Nat.mod_eq_of_lt (by omega)] at e
      by_contra hc
      rw [if_neg hc, if_neg (by omega)] at e
      cases e
    have k0 : s0 < 4 := key 0
    have k1 : s1 < 4 := key 1
    have k2 : s2 < 4 := key 2
    have k3 : s3 < 4 := key 3
    simp [k0, k1, k2, k3] at hs

/-! ## Vectors of 128-bit registers -/

omit h in
theorem vecRd_lt {K l w : Nat} (a : Fin K → Vec w l) {k : Nat} (hk : k < K) : vecRd a k = some (a ⟨k, hk⟩) :=
  dif_pos hk

omit h in
theorem vecRd_ge {K l w : Nat} (a : Fin K → Vec w l) {k : Nat} (hk : K ≤ k) : vecRd a k = none :=
  dif_neg (by omega)

omit h in
/-- A loop in which some iteration is undefined is undefined. -/
theorem forS_none {α : Type} {step : Nat} (body : Nat → α → Option α) {hi i : Nat} (hs : 0 < step)
    (hn : ∀ s, body i s = none) : ∀ (t lo : Nat) (s : α), i = lo + t * step → i < hi →
    forS step lo hi body s = none := by
  intro t
  induction t with
  | zero =>
    intro lo s e hi'
    have : i = lo := by omega
    subst this
    rw [forS, dif_pos ⟨hi', hs⟩, hn]
    rfl
  | succ t ih =>
    intro lo s e hi'
    have e' : i = (lo + step) + t * step := by rw [e, Nat.add_mul]; omega
    have : lo < hi := by omega
    rw [forS, dif_pos ⟨this, hs⟩]
    cases body lo s with
    | none => rfl
    | some s' => exact ih (lo + step) s' e' hi'

omit h in
/-- Defect: `permute4` and `shuffle4x2` on 64-bit elements held in more than two 128-bit registers (element
count above four, no 256-bit type) index the register array out of bounds for every selector and content
(/repo/simdpp/detail/insn/permute4.h:229-234, 274-279, shuffle4x2.h:128-136, 221-228). -/
theorem C18_loops_64_undefined {k : Kind} {K : Nat} (hK : 3 ≤ K) (s0 s1 s2 s3 : Nat) (a b : Fin K → Vec 64 2) :
    permute4_64_loop c k s0 s1 s2 s3 a = none ∧ shuffle4x2_64_loop c k s0 s1 s2 s3 a b = none := by
  have hi : (K - 1) / 2 * 2 < K := by omega
  have hge : K ≤ (K - 1) / 2 * 2 * 2 := by omega
  constructor
  · unfold permute4_64_loop
    rw [forS_none _ (by decide) (fun s => ?_) ((K - 1) / 2) 0 _ (Nat.zero_add _).symm hi]
    · rfl
    · rw [vecRd_ge a hge]; rfl
  · unfold shuffle4x2_64_loop
    rw [forS_none _ (by decide) (fun s => ?_) ((K - 1) / 2) 0 _ (Nat.zero_add _).symm hi]
    · rfl
    · rw [vecRd_ge a hge]; rfl

/-- C18 (`shuffle4x2` on four 64-bit elements held in two 128-bit registers). -/
theorem C18_shuffle4x2_64_two {k : Kind} {s0 s1 s2 s3 : Nat} (h0 : s0 < 8) (h1 : s1 < 8) (h2 : s2 < 8)
    (h3 : s3 < 8) (a b : Fin 2 → Vec 64 2) :
    ∃ res, shuffle4x2_64_loop c k s0 s1 s2 s3 a b = some res ∧
      Picks 4 (fun j => if j = 0 then s0 else if j = 1 then s1 else if j = 2 then s2 else s3)
        (comb2 (a 0) (a 1)) (comb2 (b 0) (b 1)) (comb2 (res 0) (res 1)) := by
  obtain ⟨r0, e0, p0⟩ := shuffle_64x4_half_eq h (k := k) h0 h1 (a 0) (a 1) (b 0) (b 1)
  obtain ⟨r1, e1, p1⟩ := shuffle_64x4_half_eq h (k := k) h2 h3 (a 0) (a 1) (b 0) (b 1)
  refine ⟨fun i => if i.val = 0 then r0 else r1, ?_, ?_⟩
  · unfold shuffle4x2_64_loop
    rw [forS, dif_pos (by decide)]
    simp only [Nat.zero_mul, Nat.zero_add, vecRd_lt a (show 0 < 2 by decide), vecRd_lt a (show 1 < 2 by decide),
      vecRd_lt b (show 0 < 2 by decide), vecRd_lt b (show 1 < 2 by decide), Option.bind_eq_bind, Option.bind_some]
    erw [e0, e1]
    simp only [Option.bind_some, vecWr, show (0 : Nat) < 2 by decide, show (1 : Nat) < 2 by decide, if_true]
    rw [forS, dif_neg (by decide)]
    simp only [Option.bind_some]
    unfold vecRet vecRet.lanesA
    rw [dif_pos (by intro i; rcases i with ⟨_ | _ | i, hi'⟩ <;> first | omega | rfl)]
    refine congrArg some (funext fun i => ?_)
    rcases i with ⟨_ | _ | i, hi'⟩ <;> first | omega | rfl
  · have : comb2 r0 r1 = _ := comb2_sel ⟨h0, h1, h2, h3⟩ p0 p1
    show Picks 4 _ _ _ (comb2 r0 r1)
    rw [this]
    exact picks_gather (fun j _ => sel4_lt h0 h1 h2 h3 j) _ _

end

/-! Non-vacuity: concrete configurations meet the hypotheses. -/

example : ok2x2_64 Cfg.sse2Only .flt .r128 3 1 = true ∧ ok2x2_64 Cfg.sse2Only .flt .r128 3 0 = false ∧
    ok2x2_64 Cfg.avx2Only .int .r256 2 3 = false ∧ ok2x2_64 Cfg.avx512All .int .r512 2 3 = true ∧
    ok2x2_64 Cfg.neonA64 .flt .r128 3 0 = true ∧ ok2x2_64 Cfg.vsx207Only .int .r128 2 1 = false := by decide

example : Cfg.avx2Only.hasVec .flt 64 .r256 = true ∧ ok4x2_64 Cfg.avx2Only .flt .r256 7 2 0 5 = true ∧
    ok4x2_64 Cfg.avx512All .flt .r256 7 2 0 5 = false ∧ ok4x2_64 Cfg.avx512All .flt .r512 7 2 0 5 = true ∧
    ok4x2_64 { Cfg.avx2Only with avx2 := false } .flt .r256 4 1 7 2 = false := by decide

/-- `permute4<3,0,2,1>` on a native 256-bit register, concrete contents. -/
example : ∃ res, i_permute4_64 Cfg.avx2Only .int .r256 3 0 2 1
      (fun i => [10, 11, 12, 13].getD i.val 0 : Vec 64 4) = some res ∧
    res ⟨0, by decide⟩ = 13 ∧ res ⟨1, by decide⟩ = 10 ∧ res ⟨2, by decide⟩ = 12 ∧ res ⟨3, by decide⟩ = 11 :=
  ⟨_, i_permute4_64_eq Cfg.avx2Only_ok rfl (by decide) (by decide) (by decide) (by decide) (by decide) _, by decide⟩

end Simdpp
