import Verif.Props.ByteSel

/-!
# Truncating conversions
-/

namespace Simdpp
open Sh Spec

variable {w v n N : Nat}

/-- Every lane truncated. -/
def trOf (v : Nat) (a : Vec w n) : Vec v n := fun i => (a i).setWidth v

theorem trOf_at (a : Vec w n) {i : Nat} (hi : i < n) : (trOf v a).at_ i = (a.at_ i).setWidth v := by
  rw [Vec.at_lt _ hi, Vec.at_lt _ hi]; rfl

theorem trunc_self (a : Vec w n) : (Hw.trunc v a : Vec v n) = trOf v a := by
  refine ext_at fun i hi => ?_
  rw [trunc_at _ hi, trOf_at _ hi]

theorem Null.conv_tr (a : Vec w n) : Null.conv false v a = trOf v a := Null.conv_eq false a

theorem trOf_trOf {u : Nat} (hvu : v ≤ u) (a : Vec w n) : trOf v (trOf u a) = trOf v a := by
  funext i
  unfold trOf
  rw [BitVec.setWidth_setWidth_of_le _ hvu]

theorem catM_trunc {m : Nat} (hm : 0 < m) (a : Vec w n) :
    catM m (fun p => some (Hw.trunc v (Hw.part m p a))) = some (trOf v a) :=
  catM_of hm fun p _ => ⟨_, rfl, fun j hj hl => by rw [trunc_at _ hj, trOf_at _ hl, Hw.part_at _ hj]⟩

theorem vpack_tr {m : Nat} (hn : n = 128 / w) (hm : n = 2 * m) (a : Vec (2 * w) n) :
    (Hw.vpack (Hw.part m 0 a) (Hw.part m 1 a) : Vec w n) = trOf w a := by
  refine ext_at fun i hi => ?_
  rw [trOf_at _ hi, Vec.at_lt _ hi]
  unfold Hw.vpack Hw.pack
  dsimp only
  rw [← hn, Nat.div_eq_of_lt hi, Nat.mod_eq_of_lt hi, Nat.zero_mul, Nat.zero_add]
  split_ifs with h1
  · rw [Hw.part_at _ (by omega), Nat.zero_mul, Nat.zero_add]
  · rw [Hw.part_at _ (by omega), show 1 * m + (0 + (i - n / 2)) = i by omega]

section
variable {c : Cfg} (h : c.Ok)
include h

theorem trunc16_8_128 (a : Vec 16 16) : trunc16_8 c .r128 a = some (trOf 8 a) := by
  unfold trunc16_8
  dsimp only
  have b0 := BS.self a 32
  by_cases g1 : c.null
  · rw [if_pos g1, Null.conv_tr]
  rw [if_neg g1]
  by_cases g2 : c.avx512vl
  · rw [if_pos g2, trunc_self]
  rw [if_neg g2]
  by_cases g3 : c.ssse3
  · rw [if_pos g3]
    by_cases g4 : c.avx2
    · rw [if_pos g4]
      obtain ⟨t1, e1, b1⟩ := maskPermuteR_bs h (q := 1) (u := 16) (s := [0, 2, 4, 6, 8, 10, 12, 14, 0, 0, 0, 0, 0, 0, 0, 0]) (fun _ => g3) (r := .r256) g4
        (by decide) (by decide) rfl (by decide) (by decide) (b0.recast 8 32 (by decide) (by decide))
      obtain ⟨t2, e2, b2⟩ := perm64_bs h (s0 := 0) (s1 := 2) (s2 := 0) (s3 := 2) (by decide) (by decide) (by decide) (by decide) g4
        (by decide) (by decide) b1
      simp only [e1, e2, Option.bind_eq_bind, Option.bind_some]
      exact congrArg some (BS.trunc (qw := 2) (qv := 1) (by decide) (by decide) rfl rfl (by decide) rfl rfl
        (b2.part (q := 1) (m' := 16) 16 0 (by decide) rfl rfl rfl (by decide)) (by decide +kernel))
    · rw [if_neg g4]
      obtain ⟨t1, e1, b1⟩ := maskPermuteR_bs h (q := 1) (u := 16) (s := [0, 2, 4, 6, 8, 10, 12, 14, 0, 0, 0, 0, 0, 0, 0, 0]) (fun _ => g3) (r := .r128) rfl
        (by decide) (by decide) rfl (by decide) (by decide)
        ((b0.part (q := 2) (m' := 16) 8 0 (by decide) rfl rfl rfl (by decide)).recast 8 16 (by decide) (by decide))
      obtain ⟨t2, e2, b2⟩ := maskPermuteR_bs h (q := 1) (u := 16) (s := [0, 2, 4, 6, 8, 10, 12, 14, 0, 0, 0, 0, 0, 0, 0, 0]) (fun _ => g3) (r := .r128) rfl
        (by decide) (by decide) rfl (by decide) (by decide)
        ((b0.part (q := 2) (m' := 16) 8 1 (by decide) rfl rfl rfl (by decide)).recast 8 16 (by decide) (by decide))
      obtain ⟨t3, e3, b3⟩ := zipAs_bs h (r := .r128) (u := 64) (l := 2) (q := 8) iw64 rfl rfl rfl rfl (by decide) (by decide) b1 b2
      simp only [e1, e2, e3, Option.bind_eq_bind, Option.bind_some]
      exact congrArg some (BS.trunc (qw := 2) (qv := 1) (by decide) (by decide) rfl rfl (by decide) rfl rfl
        (b3.recast 8 16 (by decide) (by decide)) (by decide +kernel))
  rw [if_neg g3]
  by_cases g4 : c.neon
  · rw [if_pos g4]; exact catM_trunc (by decide) a
  rw [if_neg g4]
  by_cases g5 : c.altivec
  · rw [if_pos g5]; exact congrArg some (vpack_tr (w := 8) (n := 16) (m := 8) rfl rfl a)
  rw [if_neg g5]
  by_cases g6 : c.sse2 ∨ c.msa
  · rw [if_pos g6]
    obtain ⟨t3, e3, b3⟩ := unzip_bs h (w := 8) (n := 16) (q := 1) isW8 rfl rfl rfl
      ((b0.part (q := 2) (m' := 16) 8 0 (by decide) rfl rfl rfl (by decide)).recast 8 16 (by decide) (by decide))
      ((b0.part (q := 2) (m' := 16) 8 1 (by decide) rfl rfl rfl (by decide)).recast 8 16 (by decide) (by decide))
    simp only [e3, Option.bind_eq_bind, Option.bind_some]
    exact congrArg some (BS.trunc (qw := 2) (qv := 1) (by decide) (by decide) rfl rfl (by decide) rfl rfl
        (b3.recast 8 16 (by decide) (by decide)) (by decide +kernel))
  · exfalso; cfg_absurd h

theorem trunc16_8_256 (hr : c.avx2 = true) (a : Vec 16 32) : trunc16_8 c .r256 a = some (trOf 8 a) := by
  refine (if_pos hr).trans ?_
  have b0 := BS.self a 64
  have g3 : c.sse2 = true → c.ssse3 = true := fun _ => by
    by_contra hh; cfg_absurd h
  by_cases g2 : c.avx512bw
  · rw [if_pos g2, trunc_self]
  rw [if_neg g2]
  obtain ⟨t1, e1, b1⟩ := maskPermuteR_bs h (q := 1) (u := 16) (s := [0, 2, 4, 6, 8, 10, 12, 14, 0, 0, 0, 0, 0, 0, 0, 0]) g3 (r := .r256) hr
    (by decide) (by decide) rfl (by decide) (by decide)
    ((b0.part (q := 2) (m' := 32) 16 0 (by decide) rfl rfl rfl (by decide)).recast 8 32 (by decide) (by decide))
  obtain ⟨t2, e2, b2⟩ := maskPermuteR_bs h (q := 1) (u := 16) (s := [0, 2, 4, 6, 8, 10, 12, 14, 0, 0, 0, 0, 0, 0, 0, 0]) g3 (r := .r256) hr
    (by decide) (by decide) rfl (by decide) (by decide)
    ((b0.part (q := 2) (m' := 32) 16 1 (by decide) rfl rfl rfl (by decide)).recast 8 32 (by decide) (by decide))
  obtain ⟨t3, e3, b3⟩ := shuffle4x2_bs h (s0 := 0) (s1 := 2) (s2 := 4) (s3 := 6) (by decide) (by decide) (by decide) (by decide) hr
    (b1.recast 64 4 (by decide) (by decide)) (b2.recast 64 4 (by decide) (by decide))
  simp only [e1, e2, e3, Option.bind_eq_bind, Option.bind_some]
  exact congrArg some (BS.trunc (qw := 2) (qv := 1) (by decide) (by decide) rfl rfl (by decide) rfl rfl
        (b3.recast 8 32 (by decide) (by decide)) (by decide +kernel))

theorem trunc16_8_eq {r : Reg} (hr : c.hasInt 8 r = true) (hn : N = r.lanes 8) (a : Vec 16 N) :
    trunc16_8 c r a = some (trOf 8 a) := by
  subst hn
  cases r
  · exact trunc16_8_128 h a
  · exact trunc16_8_256 h hr a
  · exact (if_pos hr).trans (catM_trunc (by decide) a)

theorem trunc32_16_128 (a : Vec 32 8) : trunc32_16 c .r128 a = some (trOf 16 a) := by
  unfold trunc32_16
  dsimp only
  have b0 := BS.self a 32
  by_cases g1 : c.null
  · rw [if_pos g1, Null.conv_tr]
  rw [if_neg g1]
  by_cases g2 : c.avx512vl
  · rw [if_pos g2, trunc_self]
  rw [if_neg g2]
  by_cases g3 : c.ssse3
  · rw [if_pos g3]
    have hs : c.sse2 = true → c.ssse3 = true := fun _ => g3
    by_cases hr : c.avx2
    · rw [if_pos hr]
      obtain ⟨t1, e1, b1⟩ := maskPermuteR_bs h (q := 2) (u := 8) (s := [0, 2, 4, 6, 0, 0, 0, 0]) hs (r := .r256) hr
        (by decide) (by decide) rfl (by decide) (by decide) (b0.recast 16 16 (by decide) (by decide))
      obtain ⟨t2, e2, b2⟩ := perm64_bs h (s0 := 0) (s1 := 2) (s2 := 0) (s3 := 2) (by decide) (by decide) (by decide) (by decide) hr
        (by decide) (by decide) b1
      simp only [e1, e2, Option.bind_eq_bind, Option.bind_some]
      exact congrArg some (BS.trunc (qw := 4) (qv := 2) (by decide) (by decide) rfl rfl (by decide) rfl rfl
        (b2.part (q := 2) (m' := 16) 8 0 (by decide) rfl rfl rfl (by decide)) (by decide +kernel))
    · rw [if_neg hr]
      obtain ⟨t1, e1, b1⟩ := maskPermuteR_bs h (q := 2) (u := 8) (s := [0, 2, 4, 6, 0, 0, 0, 0]) hs (r := .r128) rfl
        (by decide) (by decide) rfl (by decide) (by decide) ((b0.part (q := 4) (m' := 16) 4 0 (by decide) rfl rfl rfl (by decide)).recast 16 8 (by decide) (by decide))
      obtain ⟨t2, e2, b2⟩ := maskPermuteR_bs h (q := 2) (u := 8) (s := [0, 2, 4, 6, 0, 0, 0, 0]) hs (r := .r128) rfl
        (by decide) (by decide) rfl (by decide) (by decide) ((b0.part (q := 4) (m' := 16) 4 1 (by decide) rfl rfl rfl (by decide)).recast 16 8 (by decide) (by decide))
      obtain ⟨t3, e3, b3⟩ := zipAs_bs h (r := .r128) (u := 64) (l := 2) (q := 8) iw64 rfl rfl rfl rfl (by decide) (by decide) b1 b2
      simp only [e1, e2, e3, Option.bind_eq_bind, Option.bind_some]
      exact congrArg some (BS.trunc (qw := 4) (qv := 2) (by decide) (by decide) rfl rfl (by decide) rfl rfl
        (b3.recast 16 8 (by decide) (by decide)) (by decide +kernel))
  rw [if_neg g3]
  by_cases g4 : c.neon
  · rw [if_pos g4]; exact catM_trunc (by decide) a
  rw [if_neg g4]
  by_cases g5 : c.altivec
  · rw [if_pos g5]; exact congrArg some (vpack_tr (w := 16) (n := 8) (m := 4) rfl rfl a)
  rw [if_neg g5]
  by_cases g6 : c.sse2 ∨ c.msa
  · rw [if_pos g6]
    obtain ⟨t3, e3, b3⟩ := unzip_bs h (w := 16) (n := 8) (q := 2) iw16 rfl rfl rfl
      ((b0.part (q := 4) (m' := 16) 4 0 (by decide) rfl rfl rfl (by decide)).recast 16 8 (by decide) (by decide))
      ((b0.part (q := 4) (m' := 16) 4 1 (by decide) rfl rfl rfl (by decide)).recast 16 8 (by decide) (by decide))
    simp only [e3, Option.bind_eq_bind, Option.bind_some]
    exact congrArg some (BS.trunc (qw := 4) (qv := 2) (by decide) (by decide) rfl rfl (by decide) rfl rfl
      (b3.recast 16 8 (by decide) (by decide)) (by decide +kernel))
  · exfalso; cfg_absurd h

theorem trunc32_16_256 (hr : c.avx2 = true) (a : Vec 32 16) : trunc32_16 c .r256 a = some (trOf 16 a) := by
  refine (if_pos hr).trans ?_
  have b0 := BS.self a 64
  have hs : c.sse2 = true → c.ssse3 = true := fun _ => by
    by_contra hh; cfg_absurd h
  by_cases g2 : c.avx512bw
  · rw [if_pos g2, trunc_self]
  rw [if_neg g2]
  obtain ⟨t1, e1, b1⟩ := maskPermuteR_bs h (q := 2) (u := 8) (s := [0, 2, 4, 6, 0, 0, 0, 0]) hs (r := .r256) hr
    (by decide) (by decide) rfl (by decide) (by decide) ((b0.part (q := 4) (m' := 32) 8 0 (by decide) rfl rfl rfl (by decide)).recast 16 16 (by decide) (by decide))
  obtain ⟨t2, e2, b2⟩ := maskPermuteR_bs h (q := 2) (u := 8) (s := [0, 2, 4, 6, 0, 0, 0, 0]) hs (r := .r256) hr
    (by decide) (by decide) rfl (by decide) (by decide) ((b0.part (q := 4) (m' := 32) 8 1 (by decide) rfl rfl rfl (by decide)).recast 16 16 (by decide) (by decide))
  obtain ⟨t3, e3, b3⟩ := zipAs_bs h (r := .r256) (u := 64) (l := 4) (q := 8) iw64 hr rfl rfl rfl (by decide) (by decide) b1 b2
  obtain ⟨t4, e4, b4⟩ := perm64_bs h (s0 := 0) (s1 := 2) (s2 := 1) (s3 := 3) (by decide) (by decide) (by decide) (by decide) hr
    (by decide) (by decide) b3
  simp only [e1, e2, e3, e4, Option.bind_eq_bind, Option.bind_some]
  exact congrArg some (BS.trunc (qw := 4) (qv := 2) (by decide) (by decide) rfl rfl (by decide) rfl rfl
    (b4.recast 16 16 (by decide) (by decide)) (by decide +kernel))

theorem trunc32_16_eq {r : Reg} (hr : c.hasInt 16 r = true) (hn : N = r.lanes 16) (a : Vec 32 N) :
    trunc32_16 c r a = some (trOf 16 a) := by
  subst hn
  cases r
  · exact trunc32_16_128 h a
  · exact trunc32_16_256 h hr a
  · exact (if_pos hr).trans (catM_trunc (by decide) a)

theorem trunc64_32_128 (a : Vec 64 4) : trunc64_32 c .r128 a = some (trOf 32 a) := by
  unfold trunc64_32
  dsimp only
  have b0 := BS.self a 32
  by_cases g1 : c.null
  · rw [if_pos g1, Null.conv_tr]
  rw [if_neg g1]
  by_cases g2 : c.avx512vl
  · rw [if_pos g2, trunc_self]
  rw [if_neg g2]
  by_cases hr : c.avx2
  · rw [if_pos hr]
    obtain ⟨t1, e1, b1⟩ := permute4_bs h (r := .r256) (n := 8) (s0 := 0) (s1 := 2) (s2 := 0) (s3 := 2) (by decide) (by decide) (by decide) (by decide) hr
      rfl rfl (b0.recast 32 8 (by decide) (by decide))
    obtain ⟨t2, e2, b2⟩ := perm64_bs h (s0 := 0) (s1 := 2) (s2 := 0) (s3 := 2) (by decide) (by decide) (by decide) (by decide) hr
      (by decide) (by decide) b1
    simp only [e1, e2, Option.bind_eq_bind, Option.bind_some]
    exact congrArg some (BS.trunc (qw := 8) (qv := 4) (by decide) (by decide) rfl rfl (by decide) rfl rfl
      (b2.part (q := 4) (m' := 16) 4 0 (by decide) rfl rfl rfl (by decide)) (by decide +kernel))
  rw [if_neg hr]
  by_cases g4 : c.neon
  · rw [if_pos g4]; exact catM_trunc (by decide) a
  rw [if_neg g4]
  by_cases g5 : c.vsx207
  · rw [if_pos g5]; exact congrArg some (vpack_tr (w := 32) (n := 4) (m := 2) rfl rfl a)
  rw [if_neg g5]
  by_cases g6 : c.sse2 ∨ c.msa ∨ c.altivec
  · rw [if_pos g6]
    obtain ⟨t3, e3, b3⟩ := unzip_bs h (w := 32) (n := 4) (q := 4) iw32 rfl rfl rfl
      ((b0.part (q := 8) (m' := 16) 2 0 (by decide) rfl rfl rfl (by decide)).recast 32 4 (by decide) (by decide))
      ((b0.part (q := 8) (m' := 16) 2 1 (by decide) rfl rfl rfl (by decide)).recast 32 4 (by decide) (by decide))
    simp only [e3, Option.bind_eq_bind, Option.bind_some]
    exact congrArg some (BS.trunc (qw := 8) (qv := 4) (by decide) (by decide) rfl rfl (by decide) rfl rfl
      (b3.recast 32 4 (by decide) (by decide)) (by decide +kernel))
  · exfalso; cfg_absurd h

theorem trunc64_32_256 (hr : c.avx2 = true) (a : Vec 64 8) : trunc64_32 c .r256 a = some (trOf 32 a) := by
  refine (if_pos hr).trans ?_
  have b0 := BS.self a 64
  by_cases g2 : c.avx512f
  · rw [if_pos g2, trunc_self]
  rw [if_neg g2]
  obtain ⟨t1, e1, b1⟩ := permute4_bs h (r := .r256) (n := 8) (s0 := 0) (s1 := 2) (s2 := 0) (s3 := 2) (by decide) (by decide) (by decide) (by decide) hr
    rfl rfl ((b0.part (q := 8) (m' := 32) 4 0 (by decide) rfl rfl rfl (by decide)).recast 32 8 (by decide) (by decide))
  obtain ⟨t2, e2, b2⟩ := permute4_bs h (r := .r256) (n := 8) (s0 := 0) (s1 := 2) (s2 := 0) (s3 := 2) (by decide) (by decide) (by decide) (by decide) hr
    rfl rfl ((b0.part (q := 8) (m' := 32) 4 1 (by decide) rfl rfl rfl (by decide)).recast 32 8 (by decide) (by decide))
  obtain ⟨t3, e3, b3⟩ := zipAs_bs h (r := .r256) (u := 64) (l := 4) (q := 8) iw64 hr rfl rfl rfl (by decide) (by decide) b1 b2
  obtain ⟨t4, e4, b4⟩ := perm64_bs h (s0 := 0) (s1 := 2) (s2 := 1) (s3 := 3) (by decide) (by decide) (by decide) (by decide) hr
    (by decide) (by decide) b3
  simp only [e1, e2, e3, e4, Option.bind_eq_bind, Option.bind_some]
  exact congrArg some (BS.trunc (qw := 8) (qv := 4) (by decide) (by decide) rfl rfl (by decide) rfl rfl
    (b4.recast 32 8 (by decide) (by decide)) (by decide +kernel))

theorem trunc64_32_eq {r : Reg} (hr : c.hasInt 32 r = true) (hn : N = r.lanes 32) (a : Vec 64 N) :
    trunc64_32 c r a = some (trOf 32 a) := by
  subst hn
  cases r
  · exact trunc64_32_128 h a
  · exact trunc64_32_256 h hr a
  · exact (if_pos hr).trans (catM_trunc (by decide) a)

theorem i_trunc16_8_eq (hN : c.VLen 8 N) (a : Vec 16 N) : i_trunc16_8 c a = some (trOf 8 a) :=
  truncAll_eq h iw16 isW8 (by decide) hN (fun hr x => trunc16_8_eq h hr rfl x) (fun _ => ⟨rfl, by simp⟩) a

theorem i_trunc32_16_eq (hN : c.VLen 16 N) (a : Vec 32 N) : i_trunc32_16 c a = some (trOf 16 a) :=
  truncAll_eq h iw32 iw16 (by decide) hN (fun hr x => trunc32_16_eq h hr rfl x) (fun _ => ⟨rfl, by simp⟩) a

theorem i_trunc64_32_eq (hN : c.VLen 32 N) (a : Vec 64 N) : i_trunc64_32 c a = some (trOf 32 a) :=
  truncAll_eq h iw64 iw32 (by decide) hN (fun hr x => trunc64_32_eq h hr rfl x) (fun _ => ⟨rfl, by simp⟩) a

theorem no_avx_of_ssse3 (g : ¬ c.ssse3) : c.avx2 = false ∧ c.avx512f = false ∧ c.avx512bw = false :=
  no_avx_of_sse41 h (fun hh => by cfg_absurd h)

theorem no_avx_of_avx2 (g : ¬ c.avx2) : c.avx2 = false ∧ c.avx512f = false ∧ c.avx512bw = false := by
  refine ⟨by simpa using g, ?_, ?_⟩
  · cases e : c.avx512f
    · rfl
    · cfg_absurd h
  · cases e : c.avx512bw
    · rfl
    · cfg_absurd h

theorem trunc32_8_128 (a : Vec 32 16) : trunc32_8 c .r128 a = some (trOf 8 a) := by
  unfold trunc32_8
  dsimp only
  have b0 := BS.self a 64
  by_cases g1 : c.null
  · rw [if_pos g1, Null.conv_tr]
  rw [if_neg g1]
  by_cases g2 : c.avx512f
  · rw [if_pos g2, trunc_self]
  rw [if_neg g2]
  by_cases g3 : c.ssse3
  · rw [if_pos g3]
    have hs : c.sse2 = true → c.ssse3 = true := fun _ => g3
    have hb : ∃ b : Vec 32 16, (if c.avx2 then catM 8 (fun p => maskPermuteR c .r256 1 16 [0, 4, 8, 12, 0, 0, 0, 0, 0, 0, 0, 0, 0, 0, 0, 0] (Hw.part 8 p a))
        else catM 4 (fun p => maskPermuteR c .r128 1 16 [0, 4, 8, 12, 0, 0, 0, 0, 0, 0, 0, 0, 0, 0, 0, 0] (Hw.part 4 p a))) = some b ∧
        BS (a.recast 8 64) 64 b (gsel 16 64 (ex 1 (maskIdx 1 16 fun p => (([0, 4, 8, 12, 0, 0, 0, 0, 0, 0, 0, 0, 0, 0, 0, 0].getD p 0 : Nat) : Int))) (fun t => t) (fun t => t)) := by
      by_cases hr : c.avx2
      · rw [if_pos hr]
        obtain ⟨b, e, y⟩ := BS.cat (N := 16) (m := 8) (q := 4) (B := 32) (K := 2) (by decide) (by decide) rfl rfl rfl fun p hp =>
          maskPermuteR_bs h (q := 1) (u := 16) (s := [0, 4, 8, 12, 0, 0, 0, 0, 0, 0, 0, 0, 0, 0, 0, 0]) hs (r := .r256) hr (by decide) (by decide) rfl (by decide) (by decide)
            (b0.part (q := 4) (m' := 32) 8 p (by decide) rfl rfl rfl (by omega))
        exact ⟨b, e, y.congr (by decide +kernel)⟩
      · rw [if_neg hr]
        obtain ⟨b, e, y⟩ := BS.cat (N := 16) (m := 4) (q := 4) (B := 16) (K := 4) (by decide) (by decide) rfl rfl rfl fun p hp =>
          maskPermuteR_bs h (q := 1) (u := 16) (s := [0, 4, 8, 12, 0, 0, 0, 0, 0, 0, 0, 0, 0, 0, 0, 0]) hs (r := .r128) rfl (by decide) (by decide) rfl (by decide) (by decide)
            (b0.part (q := 4) (m' := 16) 4 p (by decide) rfl rfl rfl (by omega))
        exact ⟨b, e, y.congr (by decide +kernel)⟩
    obtain ⟨b, e, y⟩ := hb
    obtain ⟨t1, e1, b1⟩ := zip_bs h (r := .r128) (w := 32) (n := 4) (q := 4) (m := 16) iw32 rfl rfl rfl rfl
      (y.part (q := 4) (m' := 16) 4 0 (by decide) rfl rfl rfl (by decide)) (y.part (q := 4) (m' := 16) 4 1 (by decide) rfl rfl rfl (by decide))
    obtain ⟨t2, e2, b2⟩ := zip_bs h (r := .r128) (w := 32) (n := 4) (q := 4) (m := 16) iw32 rfl rfl rfl rfl
      (y.part (q := 4) (m' := 16) 4 2 (by decide) rfl rfl rfl (by decide)) (y.part (q := 4) (m' := 16) 4 3 (by decide) rfl rfl rfl (by decide))
    obtain ⟨t3, e3, b3⟩ := zipAs_bs h (r := .r128) (u := 64) (l := 2) (q := 8) iw64 rfl rfl rfl rfl (by decide) (by decide) b1 b2
    have fin : some (t3.recast 8 16) = some (trOf 8 a) := congrArg some (BS.trunc (qw := 4) (qv := 1) (by decide) (by decide) rfl rfl (by decide) rfl rfl
      (b3.recast 8 16 (by decide) (by decide)) (by decide +kernel))
    by_cases hr : c.avx2
    · rw [if_pos hr] at e ⊢
      simp only [e, e1, e2, e3, Option.bind_eq_bind, Option.bind_some]
      exact fin
    · rw [if_neg hr] at e ⊢
      simp only [e, e1, e2, e3, Option.bind_eq_bind, Option.bind_some]
      exact fin
  · rw [if_neg g3]
    obtain ⟨n1, n2, n3⟩ := no_avx_of_ssse3 h g3
    have v16 : c.VLen 16 16 := vlen_base (K := 2) n1 n2 n3 (by decide)
    have v8 : c.VLen 8 16 := vlen_base (K := 1) n1 n2 n3 (by decide)
    rw [i_trunc32_16_eq h v16, Option.bind_eq_bind, Option.bind_some, i_trunc16_8_eq h v8, trOf_trOf (by decide)]

theorem trunc32_8_eq {r : Reg} (hr : c.hasInt 8 r = true) (hx : r = .r256 → c.avx512f = true) (hn : N = r.lanes 8) (a : Vec 32 N) :
    trunc32_8 c r a = some (trOf 8 a) := by
  subst hn
  cases r
  · exact trunc32_8_128 h a
  · exact (if_pos hr).trans ((if_pos (hx rfl)).trans (catM_trunc (by decide) a))
  · exact (if_pos hr).trans (catM_trunc (by decide) a)

theorem trunc64_16_128 (a : Vec 64 8) : trunc64_16 c .r128 a = some (trOf 16 a) := by
  unfold trunc64_16
  dsimp only
  have b0 := BS.self a 64
  by_cases g1 : c.null
  · rw [if_pos g1, Null.conv_tr]
  rw [if_neg g1]
  by_cases g2 : c.avx512f
  · rw [if_pos g2, trunc_self]
  rw [if_neg g2]
  by_cases hr : c.avx2
  · rw [if_pos hr]
    have hs : c.sse2 = true → c.ssse3 = true := fun _ => by
      by_contra hh; cfg_absurd h
    obtain ⟨t1, e1, b1⟩ := maskPermuteR_bs h (q := 2) (u := 8) (s := [0, 4, 0, 0, 0, 0, 0, 0]) hs (r := .r256) hr
      (by decide) (by decide) rfl (by decide) (by decide) ((b0.part (q := 8) (m' := 32) 4 0 (by decide) rfl rfl rfl (by decide)).recast 16 16 (by decide) (by decide))
    obtain ⟨t2, e2, b2⟩ := maskPermuteR_bs h (q := 2) (u := 8) (s := [0, 4, 0, 0, 0, 0, 0, 0]) hs (r := .r256) hr
      (by decide) (by decide) rfl (by decide) (by decide) ((b0.part (q := 8) (m' := 32) 4 1 (by decide) rfl rfl rfl (by decide)).recast 16 16 (by decide) (by decide))
    obtain ⟨t3, e3, b3⟩ := zipAs_bs h (r := .r256) (u := 32) (l := 8) (q := 4) iw32 hr rfl rfl rfl (by decide) (by decide) b1 b2
    obtain ⟨t4, e4, b4⟩ := perm64_bs h (s0 := 0) (s1 := 2) (s2 := 1) (s3 := 3) (by decide) (by decide) (by decide) (by decide) hr
      (by decide) (by decide) b3
    obtain ⟨t5, e5, b5⟩ := permute4_bs h (r := .r128) (n := 4) (s0 := 0) (s1 := 2) (s2 := 1) (s3 := 3) (by decide) (by decide) (by decide) (by decide) rfl
      rfl rfl ((b4.recast 32 8 (by decide) (by decide)).part (q := 4) (m' := 16) 4 0 (by decide) rfl rfl rfl (by decide))
    simp only [e1, e2, e3, e4, e5, Option.bind_eq_bind, Option.bind_some]
    exact congrArg some (BS.trunc (qw := 8) (qv := 2) (by decide) (by decide) rfl rfl (by decide) rfl rfl
      (b5.recast 16 8 (by decide) (by decide)) (by decide +kernel))
  rw [if_neg hr]
  by_cases g3 : c.ssse3
  · rw [if_pos g3]
    have hs : c.sse2 = true → c.ssse3 = true := fun _ => g3
    obtain ⟨t1, e1, b1⟩ := maskPermuteR_bs h (q := 2) (u := 8) (s := [0, 4, 0, 0, 0, 0, 0, 0]) hs (r := .r128) rfl
      (by decide) (by decide) rfl (by decide) (by decide) ((b0.part (q := 8) (m' := 16) 2 0 (by decide) rfl rfl rfl (by decide)).recast 16 8 (by decide) (by decide))
    obtain ⟨t2, e2, b2⟩ := maskPermuteR_bs h (q := 2) (u := 8) (s := [0, 4, 0, 0, 0, 0, 0, 0]) hs (r := .r128) rfl
      (by decide) (by decide) rfl (by decide) (by decide) ((b0.part (q := 8) (m' := 16) 2 1 (by decide) rfl rfl rfl (by decide)).recast 16 8 (by decide) (by decide))
    obtain ⟨t3, e3, b3⟩ := maskPermuteR_bs h (q := 2) (u := 8) (s := [0, 4, 0, 0, 0, 0, 0, 0]) hs (r := .r128) rfl
      (by decide) (by decide) rfl (by decide) (by decide) ((b0.part (q := 8) (m' := 16) 2 2 (by decide) rfl rfl rfl (by decide)).recast 16 8 (by decide) (by decide))
    obtain ⟨t4, e4, b4⟩ := maskPermuteR_bs h (q := 2) (u := 8) (s := [0, 4, 0, 0, 0, 0, 0, 0]) hs (r := .r128) rfl
      (by decide) (by decide) rfl (by decide) (by decide) ((b0.part (q := 8) (m' := 16) 2 3 (by decide) rfl rfl rfl (by decide)).recast 16 8 (by decide) (by decide))
    obtain ⟨t5, e5, b5⟩ := zipAs_bs h (r := .r128) (u := 32) (l := 4) (q := 4) iw32 rfl rfl rfl rfl (by decide) (by decide) b1 b2
    obtain ⟨t6, e6, b6⟩ := zipAs_bs h (r := .r128) (u := 32) (l := 4) (q := 4) iw32 rfl rfl rfl rfl (by decide) (by decide) b3 b4
    obtain ⟨t7, e7, b7⟩ := zipAs_bs h (r := .r128) (u := 64) (l := 2) (q := 8) iw64 rfl rfl rfl rfl (by decide) (by decide) b5 b6
    simp only [e1, e2, e3, e4, e5, e6, e7, Option.bind_eq_bind, Option.bind_some]
    exact congrArg some (BS.trunc (qw := 8) (qv := 2) (by decide) (by decide) rfl rfl (by decide) rfl rfl
      (b7.recast 16 8 (by decide) (by decide)) (by decide +kernel))
  · rw [if_neg g3]
    obtain ⟨n1, n2, n3⟩ := no_avx_of_ssse3 h g3
    have v32 : c.VLen 32 8 := vlen_base (K := 2) n1 n2 n3 (by decide)
    have v16 : c.VLen 16 8 := vlen_base (K := 1) n1 n2 n3 (by decide)
    rw [i_trunc64_32_eq h v32, Option.bind_eq_bind, Option.bind_some, i_trunc32_16_eq h v16, trOf_trOf (by decide)]

theorem trunc64_16_256 (hr : c.avx2 = true) (a : Vec 64 16) : trunc64_16 c .r256 a = some (trOf 16 a) := by
  refine (if_pos hr).trans ?_
  have b0 := BS.self a 128
  have hs : c.sse2 = true → c.ssse3 = true := fun _ => by
    by_contra hh; cfg_absurd h
  by_cases g2 : c.avx512f
  · rw [if_pos g2]; exact catM_trunc (by decide) a
  rw [if_neg g2]
  obtain ⟨t1, e1, b1⟩ := maskPermuteR_bs h (q := 2) (u := 8) (s := [0, 4, 0, 0, 0, 0, 0, 0]) hs (r := .r256) hr
    (by decide) (by decide) rfl (by decide) (by decide) ((b0.part (q := 8) (m' := 32) 4 0 (by decide) rfl rfl rfl (by decide)).recast 16 16 (by decide) (by decide))
  obtain ⟨t2, e2, b2⟩ := maskPermuteR_bs h (q := 2) (u := 8) (s := [0, 4, 0, 0, 0, 0, 0, 0]) hs (r := .r256) hr
    (by decide) (by decide) rfl (by decide) (by decide) ((b0.part (q := 8) (m' := 32) 4 1 (by decide) rfl rfl rfl (by decide)).recast 16 16 (by decide) (by decide))
  obtain ⟨t3, e3, b3⟩ := maskPermuteR_bs h (q := 2) (u := 8) (s := [0, 4, 0, 0, 0, 0, 0, 0]) hs (r := .r256) hr
    (by decide) (by decide) rfl (by decide) (by decide) ((b0.part (q := 8) (m' := 32) 4 2 (by decide) rfl rfl rfl (by decide)).recast 16 16 (by decide) (by decide))
  obtain ⟨t4, e4, b4⟩ := maskPermuteR_bs h (q := 2) (u := 8) (s := [0, 4, 0, 0, 0, 0, 0, 0]) hs (r := .r256) hr
    (by decide) (by decide) rfl (by decide) (by decide) ((b0.part (q := 8) (m' := 32) 4 3 (by decide) rfl rfl rfl (by decide)).recast 16 16 (by decide) (by decide))
  obtain ⟨t5, e5, b5⟩ := zipAs_bs h (r := .r256) (u := 32) (l := 8) (q := 4) iw32 hr rfl rfl rfl (by decide) (by decide) b1 b2
  obtain ⟨t6, e6, b6⟩ := zipAs_bs h (r := .r256) (u := 32) (l := 8) (q := 4) iw32 hr rfl rfl rfl (by decide) (by decide) b3 b4
  obtain ⟨t7, e7, b7⟩ := zipAs_bs h (r := .r256) (u := 64) (l := 4) (q := 8) iw64 hr rfl rfl rfl (by decide) (by decide) b5 b6
  obtain ⟨t8, e8, b8⟩ := perm64_bs h (s0 := 0) (s1 := 2) (s2 := 1) (s3 := 3) (by decide) (by decide) (by decide) (by decide) hr
    (by decide) (by decide) b7
  obtain ⟨t9, e9, b9⟩ := permute4_bs h (r := .r256) (n := 8) (s0 := 0) (s1 := 2) (s2 := 1) (s3 := 3) (by decide) (by decide) (by decide) (by decide) hr
    rfl rfl (b8.recast 32 8 (by decide) (by decide))
  simp only [e1, e2, e3, e4, e5, e6, e7, e8, e9, Option.bind_eq_bind, Option.bind_some]
  exact congrArg some (BS.trunc (qw := 8) (qv := 2) (by decide) (by decide) rfl rfl (by decide) rfl rfl
    (b9.recast 16 16 (by decide) (by decide)) (by decide +kernel))

theorem trunc64_16_eq {r : Reg} (hr : c.hasInt 16 r = true) (hn : N = r.lanes 16) (a : Vec 64 N) :
    trunc64_16 c r a = some (trOf 16 a) := by
  subst hn
  cases r
  · exact trunc64_16_128 h a
  · exact trunc64_16_256 h hr a
  · exact (if_pos hr).trans (catM_trunc (by decide) a)

omit h in
theorem pairTrunc_at (x y : Vec 64 8) {j : Nat} (hj : j < 16) :
    (pairTrunc64_8 x y).at_ j = if j < 8 then (x.at_ j).setWidth 8 else (y.at_ (j - 8)).setWidth 8 := by
  have key : pairTrunc64_8 x y = gather 16 (fun j => if j < 8 then j else j + 8) (Hw.trunc 8 x : Vec 8 16) (Hw.trunc 8 y) := by
    unfold pairTrunc64_8
    have hu : ∀ p q : Vec 64 2, Hw.unpacklo p q = gather 2 (zipI 64) p q := fun p q => gather_congr (by decide) (by decide) p q
    rw [hu]
    rw [recast_gather (w := 64) (v := 8) (L := 2) (q := 8) (n := 2) (m := 16) (by decide) (by decide) (by decide) rfl rfl (by decide),
      Vec.recast_recast _ (by decide) (by decide), Vec.recast_recast _ (by decide) (by decide)]
    exact gather_congr (by decide) (by decide) _ _
  rw [key, gather_at _ _ hj, Nat.mod_eq_of_lt hj, Nat.div_eq_of_lt hj]
  split_ifs <;> first | omega | (rw [trunc_at _ (by omega)]; congr 2; omega)

theorem trunc64_8_128 (a : Vec 64 16) : trunc64_8 c .r128 a = some (trOf 8 a) := by
  unfold trunc64_8
  dsimp only
  have b0 := BS.self a 128
  by_cases g1 : c.null
  · rw [if_pos g1, Null.conv_tr]
  rw [if_neg g1]
  by_cases g2 : c.avx512f
  · rw [if_pos g2, Vec.recast_self]
    refine congrArg some (ext_at fun i hi => ?_)
    rw [pairTrunc_at _ _ hi, trOf_at _ hi]
    split_ifs with h1
    · rw [Hw.part_at _ h1, Nat.zero_mul, Nat.zero_add]
    · rw [Hw.part_at _ (by omega)]; congr 2; omega
  rw [if_neg g2]
  by_cases hr : c.avx2
  · rw [if_pos hr]
    have hs : c.sse2 = true → c.ssse3 = true := fun _ => by
      by_contra hh; cfg_absurd h
    obtain ⟨t1, e1, b1⟩ := maskPermuteR_bs h (q := 1) (u := 16) (s := [0, 8, 0, 0, 0, 0, 0, 0, 0, 0, 0, 0, 0, 0, 0, 0]) hs (r := .r256) hr
      (by decide) (by decide) rfl (by decide) (by decide) ((b0.part (q := 8) (m' := 32) 4 0 (by decide) rfl rfl rfl (by decide)).recast 8 32 (by decide) (by decide))
    obtain ⟨t2, e2, b2⟩ := maskPermuteR_bs h (q := 1) (u := 16) (s := [0, 8, 0, 0, 0, 0, 0, 0, 0, 0, 0, 0, 0, 0, 0, 0]) hs (r := .r256) hr
      (by decide) (by decide) rfl (by decide) (by decide) ((b0.part (q := 8) (m' := 32) 4 1 (by decide) rfl rfl rfl (by decide)).recast 8 32 (by decide) (by decide))
    obtain ⟨t3, e3, b3⟩ := maskPermuteR_bs h (q := 1) (u := 16) (s := [0, 8, 0, 0, 0, 0, 0, 0, 0, 0, 0, 0, 0, 0, 0, 0]) hs (r := .r256) hr
      (by decide) (by decide) rfl (by decide) (by decide) ((b0.part (q := 8) (m' := 32) 4 2 (by decide) rfl rfl rfl (by decide)).recast 8 32 (by decide) (by decide))
    obtain ⟨t4, e4, b4⟩ := maskPermuteR_bs h (q := 1) (u := 16) (s := [0, 8, 0, 0, 0, 0, 0, 0, 0, 0, 0, 0, 0, 0, 0, 0]) hs (r := .r256) hr
      (by decide) (by decide) rfl (by decide) (by decide) ((b0.part (q := 8) (m' := 32) 4 3 (by decide) rfl rfl rfl (by decide)).recast 8 32 (by decide) (by decide))
    obtain ⟨t5, e5, b5⟩ := zipAs_bs h (r := .r256) (u := 16) (l := 16) (q := 2) iw16 hr rfl rfl rfl (by decide) (by decide) b1 b2
    obtain ⟨t6, e6, b6⟩ := zipAs_bs h (r := .r256) (u := 16) (l := 16) (q := 2) iw16 hr rfl rfl rfl (by decide) (by decide) b3 b4
    obtain ⟨t7, e7, b7⟩ := zipAs_bs h (r := .r256) (u := 32) (l := 8) (q := 4) iw32 hr rfl rfl rfl (by decide) (by decide) b5 b6
    obtain ⟨t8, e8, b8⟩ := perm64_bs h (s0 := 0) (s1 := 2) (s2 := 0) (s3 := 2) (by decide) (by decide) (by decide) (by decide) hr
      (by decide) (by decide) b7
    obtain ⟨t9, e9, b9⟩ := maskPermuteR_bs h (q := 2) (u := 8) (s := [0, 4, 1, 5, 2, 6, 3, 7]) hs (r := .r128) rfl
      (by decide) (by decide) rfl (by decide) (by decide) ((b8.recast 16 16 (by decide) (by decide)).part (q := 2) (m' := 16) 8 0 (by decide) rfl rfl rfl (by decide))
    simp only [e1, e2, e3, e4, e5, e6, e7, e8, e9, Option.bind_eq_bind, Option.bind_some]
    exact congrArg some (BS.trunc (qw := 8) (qv := 1) (by decide) (by decide) rfl rfl (by decide) rfl rfl
      (b9.recast 8 16 (by decide) (by decide)) (by decide +kernel))
  · rw [if_neg hr]
    obtain ⟨n1, n2, n3⟩ := no_avx_of_avx2 h hr
    have v32 : c.VLen 32 16 := vlen_base (K := 4) n1 n2 n3 (by decide)
    have v8 : c.VLen 8 16 := vlen_base (K := 1) n1 n2 n3 (by decide)
    rw [i_trunc64_32_eq h v32, Option.bind_eq_bind, Option.bind_some]
    unfold i_trunc32_8
    rw [if_neg (by simp [n2])]
    have e : truncAll c 4 false (trunc32_8 c) (trOf 32 a) = some (trOf 8 (trOf 32 a)) :=
      truncAll_eq h iw32 isW8 (by decide) v8 (fun hr x => trunc32_8_eq h hr (fun e => by
        rw [e] at hr; exact absurd hr (by simp [Cfg.hasInt, n1])) rfl x) (fun _ => ⟨rfl, by simp [n2]⟩) _
    rw [e, trOf_trOf (by decide)]

theorem trunc64_8_256 (hr : c.avx2 = true) (hf : ¬ c.avx512f) (a : Vec 64 32) : trunc64_8 c .r256 a = some (trOf 8 a) := by
  refine (if_pos hr).trans ?_
  rw [if_neg hf]
  have b0 := BS.self a 256
  have hs : c.sse2 = true → c.ssse3 = true := fun _ => by
    by_contra hh; cfg_absurd h
  obtain ⟨t1, e1, b1⟩ := maskPermuteR_bs h (q := 1) (u := 16) (s := [0, 8, 0, 0, 0, 0, 0, 0, 0, 0, 0, 0, 0, 0, 0, 0]) hs (r := .r256) hr
    (by decide) (by decide) rfl (by decide) (by decide) ((b0.part (q := 8) (m' := 32) 4 0 (by decide) rfl rfl rfl (by decide)).recast 8 32 (by decide) (by decide))
  obtain ⟨t2, e2, b2⟩ := maskPermuteR_bs h (q := 1) (u := 16) (s := [0, 8, 0, 0, 0, 0, 0, 0, 0, 0, 0, 0, 0, 0, 0, 0]) hs (r := .r256) hr
    (by decide) (by decide) rfl (by decide) (by decide) ((b0.part (q := 8) (m' := 32) 4 1 (by decide) rfl rfl rfl (by decide)).recast 8 32 (by decide) (by decide))
  obtain ⟨t3, e3, b3⟩ := maskPermuteR_bs h (q := 1) (u := 16) (s := [0, 8, 0, 0, 0, 0, 0, 0, 0, 0, 0, 0, 0, 0, 0, 0]) hs (r := .r256) hr
    (by decide) (by decide) rfl (by decide) (by decide) ((b0.part (q := 8) (m' := 32) 4 2 (by decide) rfl rfl rfl (by decide)).recast 8 32 (by decide) (by decide))
  obtain ⟨t4, e4, b4⟩ := maskPermuteR_bs h (q := 1) (u := 16) (s := [0, 8, 0, 0, 0, 0, 0, 0, 0, 0, 0, 0, 0, 0, 0, 0]) hs (r := .r256) hr
    (by decide) (by decide) rfl (by decide) (by decide) ((b0.part (q := 8) (m' := 32) 4 3 (by decide) rfl rfl rfl (by decide)).recast 8 32 (by decide) (by decide))
  obtain ⟨t5, e5, b5⟩ := maskPermuteR_bs h (q := 1) (u := 16) (s := [0, 8, 0, 0, 0, 0, 0, 0, 0, 0, 0, 0, 0, 0, 0, 0]) hs (r := .r256) hr
    (by decide) (by decide) rfl (by decide) (by decide) ((b0.part (q := 8) (m' := 32) 4 4 (by decide) rfl rfl rfl (by decide)).recast 8 32 (by decide) (by decide))
  obtain ⟨t6, e6, b6⟩ := maskPermuteR_bs h (q := 1) (u := 16) (s := [0, 8, 0, 0, 0, 0, 0, 0, 0, 0, 0, 0, 0, 0, 0, 0]) hs (r := .r256) hr
    (by decide) (by decide) rfl (by decide) (by decide) ((b0.part (q := 8) (m' := 32) 4 5 (by decide) rfl rfl rfl (by decide)).recast 8 32 (by decide) (by decide))
  obtain ⟨t7, e7, b7⟩ := maskPermuteR_bs h (q := 1) (u := 16) (s := [0, 8, 0, 0, 0, 0, 0, 0, 0, 0, 0, 0, 0, 0, 0, 0]) hs (r := .r256) hr
    (by decide) (by decide) rfl (by decide) (by decide) ((b0.part (q := 8) (m' := 32) 4 6 (by decide) rfl rfl rfl (by decide)).recast 8 32 (by decide) (by decide))
  obtain ⟨t8, e8, b8⟩ := maskPermuteR_bs h (q := 1) (u := 16) (s := [0, 8, 0, 0, 0, 0, 0, 0, 0, 0, 0, 0, 0, 0, 0, 0]) hs (r := .r256) hr
    (by decide) (by decide) rfl (by decide) (by decide) ((b0.part (q := 8) (m' := 32) 4 7 (by decide) rfl rfl rfl (by decide)).recast 8 32 (by decide) (by decide))
  obtain ⟨t9, e9, b9⟩ := zipAs_bs h (r := .r256) (u := 16) (l := 16) (q := 2) iw16 hr rfl rfl rfl (by decide) (by decide) b1 b2
  obtain ⟨t10, e10, b10⟩ := zipAs_bs h (r := .r256) (u := 16) (l := 16) (q := 2) iw16 hr rfl rfl rfl (by decide) (by decide) b3 b4
  obtain ⟨t11, e11, b11⟩ := zipAs_bs h (r := .r256) (u := 16) (l := 16) (q := 2) iw16 hr rfl rfl rfl (by decide) (by decide) b5 b6
  obtain ⟨t12, e12, b12⟩ := zipAs_bs h (r := .r256) (u := 16) (l := 16) (q := 2) iw16 hr rfl rfl rfl (by decide) (by decide) b7 b8
  obtain ⟨t13, e13, b13⟩ := zipAs_bs h (r := .r256) (u := 32) (l := 8) (q := 4) iw32 hr rfl rfl rfl (by decide) (by decide) b9 b10
  obtain ⟨t14, e14, b14⟩ := zipAs_bs h (r := .r256) (u := 32) (l := 8) (q := 4) iw32 hr rfl rfl rfl (by decide) (by decide) b11 b12
  obtain ⟨t15, e15, b15⟩ := zipAs_bs h (r := .r256) (u := 64) (l := 4) (q := 8) iw64 hr rfl rfl rfl (by decide) (by decide) b13 b14
  obtain ⟨t16, e16, b16⟩ := perm64_bs h (s0 := 0) (s1 := 2) (s2 := 1) (s3 := 3) (by decide) (by decide) (by decide) (by decide) hr
    (by decide) (by decide) b15
  obtain ⟨t17, e17, b17⟩ := maskPermuteR_bs h (q := 2) (u := 8) (s := [0, 4, 1, 5, 2, 6, 3, 7]) hs (r := .r256) hr
    (by decide) (by decide) rfl (by decide) (by decide) (b16.recast 16 16 (by decide) (by decide))
  simp only [e1, e2, e3, e4, e5, e6, e7, e8, e9, e10, e11, e12, e13, e14, e15, e16, e17, Option.bind_eq_bind, Option.bind_some]
  exact congrArg some (BS.trunc (qw := 8) (qv := 1) (by decide) (by decide) rfl rfl (by decide) rfl rfl
    (b17.recast 8 32 (by decide) (by decide)) (by decide +kernel))

omit h in
theorem pairs_tr {K : Nat} (hN : N = 16 * K) (a : Vec 64 N) :
    catM 16 (fun p => some (pairTrunc64_8 (Hw.part 8 (p * 2) a) (Hw.part 8 (p * 2 + 1) a))) = some (trOf 8 a) :=
  catM_of (by decide) fun p _ => ⟨_, rfl, fun j hj hl => by
    rw [pairTrunc_at _ _ hj, trOf_at _ hl]
    split_ifs with h1
    · rw [Hw.part_at _ h1]; congr 2; omega
    · rw [Hw.part_at _ (by omega)]; congr 2; omega⟩

theorem trunc64_8_eq {r : Reg} (hr : c.hasInt 8 r = true) (hn : N = r.lanes 8) (a : Vec 64 N) :
    trunc64_8 c r a = some (trOf 8 a) := by
  subst hn
  cases r
  · exact trunc64_8_128 h a
  · by_cases hf : c.avx512f
    · exact (if_pos hr).trans ((if_pos hf).trans (pairs_tr (K := 2) rfl a))
    · exact trunc64_8_256 h hr hf a
  · exact (if_pos hr).trans (pairs_tr (K := 4) rfl a)

/-- `uint32<N>` to 8 bits, except AVX2 without AVX-512F beyond one 128-bit result, and except AVX-512F without
AVX-512BW beyond one 256-bit result. -/
theorem i_trunc32_8_eq (hN : c.VLen 8 N) (hx : c.avx2 = true → c.avx512f = false → N = 16)
    (hy : c.avx512f = true → c.avx512bw = false → N ≤ 32) (a : Vec 32 N) : i_trunc32_8 c a = some (trOf 8 a) := by
  have hbase : c.hasInt 8 (c.regOf 8 N) = true → ∀ x, trunc32_8 c (c.regOf 8 N) x = some (fun i => (x i).setWidth 8) :=
    fun hr x => trunc32_8_eq h hr (fun e => by
      by_contra hf
      have hf' : c.avx512f = false := by simpa using hf
      rw [e] at hr
      have := hx hr hf'
      rw [this] at e
      exact absurd e (by rw [show c.regOf 8 16 = .r128 from if_pos rfl]; decide)) rfl x
  unfold i_trunc32_8
  by_cases g : c.avx512f ∧ ¬ c.avx512bw
  · rw [if_pos g]
    refine truncAll_eq h iw32 isW8 (by decide) hN hbase (fun hne => absurd ?_ hne) a
    have h2 := h.avx512f g.1
    have := hy g.1 (by simpa using g.2)
    obtain ⟨-, e | ⟨K, hK, e, -⟩⟩ := VLen.cases h isW8 hN
    · exact e
    · have : c.fast 8 = .r256 := by
        unfold Cfg.fast Cfg.hasInt; simp [h2, g.2]
      rw [this] at e
      have e' : N = K * 32 := e
      omega
  · rw [if_neg g]
    exact truncAll_eq h iw32 isW8 (by decide) hN hbase (fun _ => ⟨rfl, by rw [if_neg (fun hh => g ⟨hh.1, hh.2.1⟩)]⟩) a

theorem i_trunc64_16_eq (hN : c.VLen 16 N) (a : Vec 64 N) : i_trunc64_16 c a = some (trOf 16 a) :=
  truncAll_eq h iw64 iw16 (by decide) hN (fun hr x => trunc64_16_eq h hr rfl x) (fun _ => ⟨rfl, by simp⟩) a

/-- `uint64<N>` to 8 bits, except AVX-512F without AVX-512BW beyond one 256-bit result. -/
theorem i_trunc64_8_eq (hN : c.VLen 8 N) (hy : c.avx512f = true → c.avx512bw = false → N ≤ 32) (a : Vec 64 N) :
    i_trunc64_8 c a = some (trOf 8 a) := by
  refine truncAll_eq h iw64 isW8 (by decide) hN (fun hr x => trunc64_8_eq h hr rfl x) (fun hne => ⟨rfl, ?_⟩) a
  rw [if_neg]
  rintro ⟨g1, g2, -, -⟩
  have := hy g1 (by simpa using g2)
  have h2 := h.avx512f g1
  obtain ⟨-, e | ⟨K, hK, e, -⟩⟩ := VLen.cases h isW8 hN
  · exact hne e
  · have : c.fast 8 = .r256 := by
      unfold Cfg.fast Cfg.hasInt; simp [h2, g2]
    rw [this] at e
    have e' : N = K * 32 := e
    omega

end

end Simdpp
