import Verif.Props.MemPack4

/-!
# Interleaving and de-interleaving three vectors
-/

namespace Simdpp
open Sh Spec

variable {w v n N S M : Nat}

theorem bs3 {A : Vec 8 S} {m : Nat} {a b d : Vec w n} {F : Nat → Nat → Nat} (ha : BS A m a (F 0)) (hb : BS A m b (F 1))
    (hd : BS A m d (F 2)) : ∀ q : Fin 3, BS A m (vec3 a b d q) (F q.val) := fun q => by
  rcases q with ⟨q, hq⟩
  have : q = 0 ∨ q = 1 ∨ q = 2 := by omega
  rcases this with rfl | rfl | rfl
  · exact ha
  · exact hb
  · exact hd

section
variable {c : Cfg} (h : c.Ok) {k : Kind} {r : Reg}
include h

theorem pack3Lanes_fs (hw : k.okW w) (hr : c.hasVec k w r = true) (hn : n = r.lanes w) :
    FS 3 r.bytes (pack3Lanes (w := w) (n := n) c k r) (fun q t => packSel 3 16 r.bytes q t) := by
  intro x
  cases r
  · refine ⟨x, rfl, fun q => (allB_bs _ x q).congr ?_⟩
    have : ∀ q : Fin 3, ∀ t, t < Reg.r128.bytes → q.val * Reg.r128.bytes + t = packSel 3 16 Reg.r128.bytes q.val t := by decide +kernel
    exact this q
  · have i := fun q => allB_bs Reg.r256.bytes x q
    obtain ⟨a, e1, s1⟩ := sh128_bs hw hr hn (i 0) (i 1) 0 0 (by decide) (by decide)
    obtain ⟨b, e2, s2⟩ := sh128_bs hw hr hn (i 2) (i 0) 0 1 (by decide) (by decide)
    obtain ⟨d, e3, s3⟩ := sh128_bs hw hr hn (i 1) (i 2) 1 1 (by decide) (by decide)
    refine ⟨vec3 a b d, ?_, bs3 (s1.congr ?_) (s2.congr ?_) (s3.congr ?_)⟩
    · simp only [pack3Lanes, e1, e2, e3, Option.bind_eq_bind, Option.bind_some]
    all_goals clear * -; decide +kernel
  · have i := fun q => allB_bs Reg.r512.bytes x q
    obtain ⟨t0, e1, s1⟩ := sh2_128_bs hw hr hn (i 0) (i 1) 0 2 0 2 (by decide) (by decide) (by decide) (by decide)
    obtain ⟨t1, e2, s2⟩ := sh2_128_bs hw hr hn (i 2) (i 0) 0 2 1 3 (by decide) (by decide) (by decide) (by decide)
    obtain ⟨t2, e3, s3⟩ := sh2_128_bs hw hr hn (i 1) (i 2) 1 3 1 3 (by decide) (by decide) (by decide) (by decide)
    obtain ⟨t3, e4, s4⟩ := sh2_128_bs hw hr hn s1 s1 0 2 1 3 (by decide) (by decide) (by decide) (by decide)
    obtain ⟨t4, e5, s5⟩ := sh2_128_bs hw hr hn s2 s2 0 2 1 3 (by decide) (by decide) (by decide) (by decide)
    obtain ⟨t5, e6, s6⟩ := sh2_128_bs hw hr hn s3 s3 0 2 1 3 (by decide) (by decide) (by decide) (by decide)
    obtain ⟨a, e7, s7⟩ := sh2_128_bs hw hr hn s4 s5 0 1 0 1 (by decide) (by decide) (by decide) (by decide)
    obtain ⟨b, e8, s8⟩ := sh2_128_bs hw hr hn s6 s4 0 1 2 3 (by decide) (by decide) (by decide) (by decide)
    obtain ⟨d, e9, s9⟩ := sh2_128_bs hw hr hn s5 s6 2 3 2 3 (by decide) (by decide) (by decide) (by decide)
    refine ⟨vec3 a b d, ?_, bs3 (s7.congr ?_) (s8.congr ?_) (s9.congr ?_)⟩
    · simp only [pack3Lanes, permute4_128, e1, e2, e3, e4, e5, e6, e7, e8, e9, Option.bind_eq_bind, Option.bind_some]
    all_goals clear * -; decide +kernel

theorem unpack3Lanes_fs (hw : k.okW w) (hr : c.hasVec k w r = true) (hn : n = r.lanes w) :
    FS 3 r.bytes (unpack3Lanes (w := w) (n := n) c k r) (fun q t => unpackSel 3 16 r.bytes q t) := by
  intro x
  cases r
  · refine ⟨x, rfl, fun q => (allB_bs _ x q).congr ?_⟩
    have : ∀ q : Fin 3, ∀ t, t < Reg.r128.bytes → q.val * Reg.r128.bytes + t = unpackSel 3 16 Reg.r128.bytes q.val t := by decide +kernel
    exact this q
  · have i := fun q => allB_bs Reg.r256.bytes x q
    obtain ⟨a, e1, s1⟩ := sh128_bs hw hr hn (i 0) (i 1) 0 1 (by decide) (by decide)
    obtain ⟨b, e2, s2⟩ := sh128_bs hw hr hn (i 0) (i 2) 1 0 (by decide) (by decide)
    obtain ⟨d, e3, s3⟩ := sh128_bs hw hr hn (i 1) (i 2) 0 1 (by decide) (by decide)
    refine ⟨vec3 a b d, ?_, bs3 (s1.congr ?_) (s2.congr ?_) (s3.congr ?_)⟩
    · simp only [unpack3Lanes, e1, e2, e3, Option.bind_eq_bind, Option.bind_some]
    all_goals clear * -; decide +kernel
  · have i := fun q => allB_bs Reg.r512.bytes x q
    obtain ⟨t0, e1, s1⟩ := sh2_128_bs hw hr hn (i 2) (i 1) 0 1 2 3 (by decide) (by decide) (by decide) (by decide)
    obtain ⟨t1, e2, s2⟩ := sh2_128_bs hw hr hn (i 0) (i 1) 0 1 0 1 (by decide) (by decide) (by decide) (by decide)
    obtain ⟨t2, e3, s3⟩ := sh2_128_bs hw hr hn (i 1) (i 2) 2 3 2 3 (by decide) (by decide) (by decide) (by decide)
    obtain ⟨t3, e4, s4⟩ := sh2_128_bs hw hr hn (i 0) (i 1) 2 3 0 1 (by decide) (by decide) (by decide) (by decide)
    obtain ⟨a, e7, s7⟩ := sh2_128_bs hw hr hn (i 0) s1 0 3 2 1 (by decide) (by decide) (by decide) (by decide)
    obtain ⟨b, e8, s8⟩ := sh2_128_bs hw hr hn s2 s3 1 2 1 2 (by decide) (by decide) (by decide) (by decide)
    obtain ⟨d, e9, s9⟩ := sh2_128_bs hw hr hn s4 (i 2) 0 3 0 3 (by decide) (by decide) (by decide) (by decide)
    refine ⟨vec3 a b d, ?_, bs3 (s7.congr ?_) (s8.congr ?_) (s9.congr ?_)⟩
    · simp only [unpack3Lanes, e1, e2, e3, e4, e7, e8, e9, Option.bind_eq_bind, Option.bind_some]
    all_goals clear * -; decide +kernel

/-! ## 64-bit lanes -/

theorem pack3_64_fs (hr : c.hasVec k 64 r = true) (hn : n = r.lanes 64) :
    FS 3 r.bytes (pack3_64 (n := n) c k r) (packSel16 3 8 r.bytes) := by
  intro x
  have i := fun q => allB_bs r.bytes x q
  obtain ⟨a, e1, s1⟩ := sh1_bs h hr hn (i 0) (i 1) 0 0 (by decide) (by decide)
  obtain ⟨b, e2, s2⟩ := sh1_bs h hr hn (i 2) (i 0) 0 1 (by decide) (by decide)
  obtain ⟨d, e3, s3⟩ := sh1_bs h hr hn (i 1) (i 2) 1 1 (by decide) (by decide)
  refine ⟨vec3 a b d, ?_, bs3 (s1.congr ?_) (s2.congr ?_) (s3.congr ?_)⟩
  · simp only [pack3_64, e1, e2, e3, Option.bind_eq_bind, Option.bind_some]
  all_goals clear * -; cases r <;> decide +kernel

theorem unpack3_64_fs (hr : c.hasVec k 64 r = true) (hn : n = r.lanes 64) :
    FS 3 r.bytes (unpack3_64 (n := n) c k r) (unpackSel16 3 8 r.bytes) := by
  intro x
  have i := fun q => allB_bs r.bytes x q
  obtain ⟨a, e1, s1⟩ := sh1_bs h hr hn (i 0) (i 1) 0 1 (by decide) (by decide)
  obtain ⟨b, e2, s2⟩ := sh1_bs h hr hn (i 0) (i 2) 1 0 (by decide) (by decide)
  obtain ⟨d, e3, s3⟩ := sh1_bs h hr hn (i 1) (i 2) 0 1 (by decide) (by decide)
  refine ⟨vec3 a b d, ?_, bs3 (s1.congr ?_) (s2.congr ?_) (s3.congr ?_)⟩
  · simp only [unpack3_64, e1, e2, e3, Option.bind_eq_bind, Option.bind_some]
  all_goals clear * -; cases r <;> decide +kernel

/-! ## 32-bit lanes -/

theorem am_r128 {w : Nat} (hw : k.okW w) (hr : c.hasVec k w r = true) (g : c.altivec = true ∨ c.msa = true) : r = .r128 ∧ c.sse2 = false := by
  have hs : c.sse2 = false := by
    obtain ⟨o1, o2, o3, o4, o5, o6, o7, o8, o9, o10, o11, o12, o13, o14, o15, o16, o17, o18, o19⟩ := h; grind
  refine ⟨?_, hs⟩
  cases r
  · rfl
  · have e := sse_of_wide h (r := .r256) (by decide) hr
    rw [hs] at e; exact absurd e (by decide)
  · have e := sse_of_wide h (r := .r512) (by decide) hr
    rw [hs] at e; exact absurd e (by decide)

theorem pack3_32_fs (gnuc : Bool) (hk : k.okW 32) (hr : c.hasVec k 32 r = true) (hn : n = r.lanes 32) :
    FS 3 r.bytes (pack3_32 (n := n) c gnuc k r) (packSel16 3 4 r.bytes) := by
  intro x
  by_cases g : c.altivec = true ∨ c.msa = true
  · obtain ⟨rfl, hs⟩ := am_r128 h hk hr g
    have hsx : c.sse2 = true → (c.ssse3 = true ∨ c.xop = true) := fun e => by rw [hs] at e; exact absurd e (by decide)
    have i := fun q => allB_bs Reg.r128.bytes x q
    obtain ⟨b1, e1, s1⟩ := align_bs h hk hr hn (i 1) (i 1) 1 (by decide) (by decide)
    obtain ⟨c1, e2, s2⟩ := align_bs h hk hr hn (i 2) (i 2) 2 (by decide) (by decide)
    have em := move_mask h (r := .r128) iw32 rfl hn 1 (by decide) (by decide)
    obtain ⟨a2, e3, s3⟩ := blend_bs h hk hr hn (i 0) s2 (fun j => decide (j + 1 < 128 / 32)) rfl
    obtain ⟨b2, e4, s4⟩ := blend_bs h hk hr hn s1 (i 0) (fun j => decide (j + 1 < 128 / 32)) rfl
    obtain ⟨c2, e5, s5⟩ := blend_bs h hk hr hn s2 s1 (fun j => decide (j + 1 < 128 / 32)) rfl
    obtain ⟨a, e6, s6⟩ := msh_bs h hsx (q := 4) (u := 4) iw32 rfl (s := fun p => [0, 4+3, 4+2, 1].getD p 0) (by decide) (by decide) hn s3 s5
    obtain ⟨b, e7, s7⟩ := msh_bs h hsx (q := 4) (u := 4) iw32 rfl (s := fun p => [0, 4+3, 4+2, 1].getD p 0) (by decide) (by decide) hn s4 s3
    obtain ⟨d, e8, s8⟩ := msh_bs h hsx (q := 4) (u := 4) iw32 rfl (s := fun p => [0, 4+3, 4+2, 1].getD p 0) (by decide) (by decide) hn s5 s4
    refine ⟨vec3 a b d, ?_, bs3 (s6.congr ?_) (s7.congr ?_) (s8.congr ?_)⟩
    · have em' : i_move_l c .int .r128 1 (Vec.splat 0xffffffff : Vec 32 n) = _ := em
      unfold pack3_32
      rw [if_pos g]
      simp only [e1, e2, em', e3, e4, e5, e6, e7, e8, Option.bind_eq_bind, Option.bind_some]
    all_goals clear * -; decide +kernel
  · have i := fun q => allB_bs r.bytes x q
    obtain ⟨t0, e1, s1⟩ := sh2_bs h hr hn (i 0) (i 1) 0 2 0 2 (by decide) (by decide) (by decide) (by decide)
    obtain ⟨t1, e2, s2⟩ := sh2_bs h hr hn (i 2) (i 0) 0 2 1 3 (by decide) (by decide) (by decide) (by decide)
    obtain ⟨t2, e3, s3⟩ := sh2_bs h hr hn (i 1) (i 2) 1 3 1 3 (by decide) (by decide) (by decide) (by decide)
    obtain ⟨t3, e4, s4⟩ := perm4_bs h gnuc hr hn s1 0 2 1 3 (by decide) (by decide) (by decide) (by decide)
    obtain ⟨t4, e5, s5⟩ := perm4_bs h gnuc hr hn s2 0 2 1 3 (by decide) (by decide) (by decide) (by decide)
    obtain ⟨t5, e6, s6⟩ := perm4_bs h gnuc hr hn s3 0 2 1 3 (by decide) (by decide) (by decide) (by decide)
    obtain ⟨a, e7, s7⟩ := sh2_bs h hr hn s4 s5 0 1 0 1 (by decide) (by decide) (by decide) (by decide)
    obtain ⟨b, e8, s8⟩ := sh2_bs h hr hn s6 s4 0 1 2 3 (by decide) (by decide) (by decide) (by decide)
    obtain ⟨d, e9, s9⟩ := sh2_bs h hr hn s5 s6 2 3 2 3 (by decide) (by decide) (by decide) (by decide)
    refine ⟨vec3 a b d, ?_, bs3 (s7.congr ?_) (s8.congr ?_) (s9.congr ?_)⟩
    · unfold pack3_32
      rw [if_neg g]
      simp only [e1, e2, e3, e4, e5, e6, e7, e8, e9, Option.bind_eq_bind, Option.bind_some]
    all_goals clear * -; cases r <;> decide +kernel

theorem unpack3_32_fs (hk : k.okW 32) (hr : c.hasVec k 32 r = true) (hn : n = r.lanes 32) :
    FS 3 r.bytes (unpack3_32 (n := n) c k r) (unpackSel16 3 4 r.bytes) := by
  intro x
  by_cases g : c.altivec = true ∨ c.msa = true
  · obtain ⟨rfl, hs⟩ := am_r128 h hk hr g
    have hsx : c.sse2 = true → (c.ssse3 = true ∨ c.xop = true) := fun e => by rw [hs] at e; exact absurd e (by decide)
    have i := fun q => allB_bs Reg.r128.bytes x q
    obtain ⟨a1, e6, s6⟩ := msh_bs (A := allB Reg.r128.bytes x) h hsx (q := 4) (u := 4) iw32 rfl (s := fun p => [0, 3, 4+2, 4+1].getD p 0) (by decide) (by decide) hn (i 0) (i 1)
    obtain ⟨b1, e7, s7⟩ := msh_bs (A := allB Reg.r128.bytes x) h hsx (q := 4) (u := 4) iw32 rfl (s := fun p => [0, 3, 4+2, 4+1].getD p 0) (by decide) (by decide) hn (i 1) (i 2)
    obtain ⟨c1, e8, s8⟩ := msh_bs (A := allB Reg.r128.bytes x) h hsx (q := 4) (u := 4) iw32 rfl (s := fun p => [0, 3, 4+2, 4+1].getD p 0) (by decide) (by decide) hn (i 2) (i 0)
    have em := move_mask h (r := .r128) iw32 rfl hn 1 (by decide) (by decide)
    obtain ⟨a2, e3, s3⟩ := blend_bs h (r := .r128) hk hr hn s6 s7 (fun j => decide (j + 1 < 128 / 32)) rfl
    obtain ⟨b2, e4, s4⟩ := blend_bs h (r := .r128) hk hr hn s7 s8 (fun j => decide (j + 1 < 128 / 32)) rfl
    obtain ⟨c2, e5, s5⟩ := blend_bs h (r := .r128) hk hr hn s8 s6 (fun j => decide (j + 1 < 128 / 32)) rfl
    obtain ⟨b, e1, s1⟩ := align_bs h hk hr hn s4 s4 3 (by decide) (by decide)
    obtain ⟨d, e2, s2⟩ := align_bs h hk hr hn s5 s5 2 (by decide) (by decide)
    refine ⟨vec3 a2 b d, ?_, bs3 (s3.congr ?_) (s1.congr ?_) (s2.congr ?_)⟩
    · have em' : i_move_l c .int .r128 1 (Vec.splat 0xffffffff : Vec 32 n) = _ := em
      unfold unpack3_32
      rw [if_pos g]
      simp only [e1, e2, em', e3, e4, e5, e6, e7, e8, Option.bind_eq_bind, Option.bind_some]
    all_goals clear * -; decide +kernel
  · have i := fun q => allB_bs r.bytes x q
    obtain ⟨t0, e1, s1⟩ := sh2_bs h hr hn (i 2) (i 1) 0 1 2 3 (by decide) (by decide) (by decide) (by decide)
    obtain ⟨t1, e2, s2⟩ := sh2_bs h hr hn (i 0) (i 1) 0 1 0 1 (by decide) (by decide) (by decide) (by decide)
    obtain ⟨t2, e3, s3⟩ := sh2_bs h hr hn (i 1) (i 2) 2 3 2 3 (by decide) (by decide) (by decide) (by decide)
    obtain ⟨t3, e4, s4⟩ := sh2_bs h hr hn (i 0) (i 1) 2 3 0 1 (by decide) (by decide) (by decide) (by decide)
    obtain ⟨a, e7, s7⟩ := sh2_bs h hr hn (i 0) s1 0 3 2 1 (by decide) (by decide) (by decide) (by decide)
    obtain ⟨b, e8, s8⟩ := sh2_bs h hr hn s2 s3 1 2 1 2 (by decide) (by decide) (by decide) (by decide)
    obtain ⟨d, e9, s9⟩ := sh2_bs h hr hn s4 (i 2) 0 3 0 3 (by decide) (by decide) (by decide) (by decide)
    refine ⟨vec3 a b d, ?_, bs3 (s7.congr ?_) (s8.congr ?_) (s9.congr ?_)⟩
    · unfold unpack3_32
      rw [if_neg g]
      simp only [e1, e2, e3, e4, e7, e8, e9, Option.bind_eq_bind, Option.bind_some]
    all_goals clear * -; cases r <;> decide +kernel

end

end Simdpp
