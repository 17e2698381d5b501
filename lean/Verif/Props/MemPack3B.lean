import Verif.Props.MemPack3
import Verif.Props.PopcntPub

/-!
# Interleaving and de-interleaving three vectors of 8- and 16-bit lanes
-/

namespace Simdpp
open Sh Spec

variable {w v n N S M : Nat}

section
variable {c : Cfg} (h : c.Ok) {r : Reg}
include h

/-- The selection made by `squeeze8`/`squeeze16`: in every 16-byte block, parts of `b` bytes `0 1 2 4 5 6 ...`, zeros above;
`p` parts in a block. -/
def sqSel (b S : Nat) (f : Nat → Nat) (t : Nat) : Nat :=
  if t % 16 < 12 then f (t / 16 * 16 + (t % 16 / b / 3 * 4 + t % 16 / b % 3) * b + t % b) else S

theorem squeeze8_bs {A : Vec 8 S} {f : Nat → Nat} (hr : c.hasInt 8 r = true) (hn : n = r.lanes 8) {x : Vec 8 n} (hx : BS A r.bytes x f)
    (hz : ∀ t, t < r.bytes → t % 4 = 3 → f t = S) :
    ∃ z, squeeze8 c r x = some z ∧ BS A r.bytes z (sqSel 1 S f) := by
  have hr64 := has_le h isW8 iw64 hr (by decide)
  have hrb : r.bytes % 16 = 0 := by cases r <;> rfl
  unfold squeeze8
  by_cases g : c.ssse3 = true
  · rw [if_pos g]
    obtain ⟨z, e, s⟩ := pbz_bs h g hr hn hx [0, 1, 2, 4, 5, 6, 8, 9, 10, 12, 13, 14, 0xff, 0xff, 0xff, 0xff] (by decide)
    refine ⟨z, e, s.congr fun t ht => ?_⟩
    have : ∀ j, j < 16 → (bIdx [0, 1, 2, 4, 5, 6, 8, 9, 10, 12, 13, 14, 0xff, 0xff, 0xff, 0xff] j) =
      if j < 12 then (j / 3 * 4 + j % 3) else 32 := by decide
    unfold gsel sqSel
    rw [this _ (Nat.mod_lt t (by decide : 0 < 16))]
    have hm : t % 16 < 16 := Nat.mod_lt _ (by decide)
    by_cases h12 : t % 16 < 12
    · simp only [h12, if_true, Nat.div_one, Nat.mul_one, Nat.mod_one, Nat.add_zero]
      rw [if_pos (by omega)]
    · simp only [h12, if_false]; rfl
  · rw [if_neg g]
    obtain ⟨w0, e1, s1⟩ := bs_as1 iw64 rfl isW8 hn hx fun _ a => shr8_bs h hr64 rfl a
    obtain ⟨u, e2, s2⟩ := blend_bs h (k := .int) isW8 hr hn hx s1 (mask := maskVec16 n [0xff, 0xff, 0xff, 0, 0, 0, 0, 0, 0xff, 0xff, 0xff, 0, 0, 0, 0, 0])
      (fun j => decide (j % 8 < 3)) (mask16_list (F := fun j => decide (j % 8 < 3)) (by decide))
    obtain ⟨x0, e3, s3⟩ := ml_bs h (k := .int) isW8 hr hn s2 2 (by decide) (by decide)
    obtain ⟨z, e4, s4⟩ := blend_bs h (k := .int) isW8 hr hn s2 s3 (mask := maskVec16 n [0xff, 0xff, 0xff, 0xff, 0xff, 0xff, 0, 0, 0, 0, 0, 0, 0, 0, 0, 0])
      (fun j => decide (j < 6)) (mask16_list (F := fun j => decide (j < 6)) (by decide))
    refine ⟨z, ?_, s4.congr fun t ht => ?_⟩
    · simp only [e1, e2, e3, e4, Option.bind_eq_bind, Option.bind_some]
    · clear e1 e2 e3 e4 s1 s2 s3 s4
      obtain ⟨B, j, hj, rfl⟩ : ∃ B j, j < 16 ∧ t = B * 16 + j := ⟨t / 16, t % 16, Nat.mod_lt _ (by decide), by omega⟩
      have hb : ∀ i, i < 16 → i % 4 = 3 → f (B * 16 + i) = S := fun i hi h3 => hz _ (by omega) (by omega)
      have d1 : ∀ i, i < 16 → (B * 16 + i) / 16 = B := fun i hi => by omega
      have d2 : ∀ i, i < 16 → (B * 16 + i) % 16 = i := fun i hi => by omega
      have d3 : ∀ i, (B * 16 + i) % 8 = i % 8 := fun i => by omega
      have hb3 := hb 3 (by decide) rfl
      have hb7 := hb 7 (by decide) rfl
      have hb11 := hb 11 (by decide) rfl
      have hb15 := hb 15 (by decide) rfl
      interval_cases j <;> simp [gsel, sqSel, ex, d1, d2, d3, hb3, hb7, hb11, hb15, Nat.mod_one]

theorem squeeze16_bs {A : Vec 8 S} {f : Nat → Nat} (hr : c.hasInt 16 r = true) (hn : n = r.lanes 16) {x : Vec 16 n} (hx : BS A r.bytes x f)
    (hz : ∀ t, t < r.bytes → 6 ≤ t % 8 → f t = S) :
    ∃ z, squeeze16 c r x = some z ∧ BS A r.bytes z (sqSel 2 S f) := by
  have hr8 : c.hasInt 8 r = true := by cases r <;> exact hr
  have hrb : r.bytes % 16 = 0 := by cases r <;> rfl
  unfold squeeze16
  by_cases g : c.ssse3 = true
  · rw [if_pos g]
    obtain ⟨z, e, s⟩ := bs_as1 isW8 rfl iw16 hn hx fun _ a => pbz_bs h g hr8 rfl a
      [0, 1, 2, 3, 4, 5, 8, 9, 10, 11, 12, 13, 0x80, 0x80, 0x80, 0x80] (by decide)
    have hM : makeShuffleMask 2 8 (fun p => ([0, 1, 2, 4, 5, 6, -1, -1] : List Int).getD p 0) =
      some [0, 1, 2, 3, 4, 5, 8, 9, 10, 11, 12, 13, 0x80, 0x80, 0x80, 0x80] := by decide
    refine ⟨z, ?_, s.congr fun t ht => ?_⟩
    · rw [hM]; exact e
    have : ∀ j, j < 16 → (bIdx [0, 1, 2, 3, 4, 5, 8, 9, 10, 11, 12, 13, 0x80, 0x80, 0x80, 0x80] j) =
      if j < 12 then (j / 2 / 3 * 4 + j / 2 % 3) * 2 + j % 2 else 32 := by decide
    unfold gsel sqSel
    rw [this _ (Nat.mod_lt t (by decide : 0 < 16))]
    have hm : t % 16 < 16 := Nat.mod_lt _ (by decide)
    by_cases h12 : t % 16 < 12
    · simp only [h12, if_true]
      rw [if_pos (by omega), show t % 16 % 2 = t % 2 by omega, Nat.add_assoc]
    · simp only [h12, if_false]; rfl
  · rw [if_neg g]
    obtain ⟨x0, e3, s3⟩ := ml_bs h (k := .int) iw16 hr hn hx 1 (by decide) (by decide)
    obtain ⟨z, e4, s4⟩ := blend_bs h (k := .int) iw16 hr hn hx s3 (mask := fun i => if i.val % 8 < 3 then 0xffff else 0)
      (fun j => decide (j < 3)) (by
        funext i
        unfold maskVec maskLane
        show _ = if decide (i.val % 8 < 3) = true then _ else _
        by_cases g : i.val % 8 < 3
        · rw [if_pos g, if_pos (by simpa using g)]; rfl
        · rw [if_neg g, if_neg (by simpa using g)])
    refine ⟨z, ?_, s4.congr fun t ht => ?_⟩
    · simp only [e3, e4, Option.bind_eq_bind, Option.bind_some]
    · clear e3 e4 s3 s4
      obtain ⟨B, j, hj, rfl⟩ : ∃ B j, j < 16 ∧ t = B * 16 + j := ⟨t / 16, t % 16, Nat.mod_lt _ (by decide), by omega⟩
      have hb : ∀ i, i < 16 → 6 ≤ i % 8 → f (B * 16 + i) = S := fun i hi h3 => hz _ (by omega) (by omega)
      have d1 : ∀ i, i < 16 → (B * 16 + i) / 16 = B := fun i hi => by omega
      have d2 : ∀ i, i < 16 → (B * 16 + i) % 16 = i := fun i hi => by omega
      have d3 : ∀ i, (B * 16 + i) % 2 = i % 2 := fun i => by omega
      have hb6 := hb 6 (by decide) (by decide)
      have hb7 := hb 7 (by decide) (by decide)
      have hb14 := hb 14 (by decide) (by decide)
      have hb15 := hb 15 (by decide) (by decide)
      have d0 : B * 16 % 2 = 0 := by omega
      interval_cases j <;> simp [gsel, sqSel, ex, d0, d1, d2, d3, hb6, hb7, hb14, hb15]

theorem pack3Tail_bs {A : Vec 8 S} {f0 f1 f2 f3 : Nat → Nat} (hw : IsW w) (hr32 : c.hasInt 32 r = true) (hn : n = r.lanes w)
    {x0 x1 x2 x3 : Vec w n} (h0 : BS A r.bytes x0 f0) (h1 : BS A r.bytes x1 f1) (h2 : BS A r.bytes x2 f2) (h3 : BS A r.bytes x3 f3)
    (d0 : ∀ t, t < r.bytes → S ≤ f0 t ∨ S ≤ gsel 16 S (ex 4 fun j => j + 1) (fun _ => S) f1 t)
    (d3 : ∀ t, t < r.bytes → S ≤ gsel 16 S (ex 4 fun j => j + 3) (fun _ => S) f3 t ∨ S ≤ gsel 16 S (ex 4 fun j => j + 2) f2 (fun _ => S) t)
    (F : Nat → Nat → Nat)
    (c0 : ∀ t, t < r.bytes → (if f0 t < S then f0 t else gsel 16 S (ex 4 fun j => j + 1) (fun _ => S) f1 t) = F 0 t)
    (c1 : ∀ t, t < r.bytes → gsel 16 S (ex 4 (sel4 1 2 4 5)) f1 f2 t = F 1 t)
    (c2 : ∀ t, t < r.bytes → (if gsel 16 S (ex 4 fun j => j + 3) (fun _ => S) f3 t < S then gsel 16 S (ex 4 fun j => j + 3) (fun _ => S) f3 t
      else gsel 16 S (ex 4 fun j => j + 2) f2 (fun _ => S) t) = F 2 t) :
    ∃ z, pack3Tail c r x0 x1 x2 x3 = some z ∧ ∀ q : Fin 3, BS A r.bytes (z q) (F q.val) := by
  obtain ⟨l0, e1, s1⟩ := bs_as1 iw32 rfl hw hn h1 fun _ a => mr_bs h (k := .int) iw32 hr32 rfl a 3 (by decide) (by decide)
  obtain ⟨l3, e2, s2⟩ := bs_as1 iw32 rfl hw hn h2 fun _ a => ml_bs h (k := .int) iw32 hr32 rfl a 2 (by decide) (by decide)
  obtain ⟨k3, e3, s3⟩ := bs_as1 iw32 rfl hw hn h3 fun _ a => mr_bs h (k := .int) iw32 hr32 rfl a 1 (by decide) (by decide)
  obtain ⟨a, e4, s4⟩ := bs_as2 iw32 rfl hw hn h0 s1 fun _ _ a b => or_bs h (k := .int) iw32 hr32 rfl a b d0
  obtain ⟨b, e5, s5⟩ := bs_as2 iw32 rfl hw hn h1 h2 fun _ _ a b => sh2_bs h (k := .int) hr32 rfl a b 1 2 0 1 (by decide) (by decide) (by decide) (by decide)
  obtain ⟨d, e6, s6⟩ := bs_as2 iw32 rfl hw hn s3 s2 fun _ _ a b => or_bs h (k := .int) iw32 hr32 rfl a b d3
  refine ⟨vec3 a b d, ?_, bs3 (s4.congr c0) (s5.congr c1) (s6.congr c2)⟩
  unfold pack3Tail
  simp only [e1, e2, e3, e4, e5, e6, Option.bind_eq_bind, Option.bind_some]

theorem pack3_8_fs (hr : c.hasInt 8 r = true) (hn : n = r.lanes 8) :
    FS 3 r.bytes (pack3_8 (n := n) c r) (packSel16 3 1 r.bytes) := by
  have hr16 := has_le h isW8 iw16 hr (by decide)
  have hr32 := has_le h isW8 iw32 hr (by decide)
  intro x
  by_cases g : c.altivec = true ∨ c.msa = true
  · obtain ⟨rfl, hs⟩ := am_r128 h (k := .int) isW8 hr g
    have hr : c.hasVec .int 8 .r128 = true := hr
    have hsx : c.sse2 = true → (c.ssse3 = true ∨ c.xop = true) := fun e => by rw [hs] at e; exact absurd e (by decide)
    have i := fun q => allB_bs Reg.r128.bytes x q
    obtain ⟨a1, e1, s1⟩ := align_bs h (k := .int) isW8 hr hn (i 0) (i 0) 11 (by decide) (by decide)
    obtain ⟨c1, e2, s2⟩ := align_bs h (k := .int) isW8 hr hn (i 2) (i 2) 5 (by decide) (by decide)
    have em := move_mask h (r := .r128) isW8 rfl hn 5 (by decide) (by decide)
    obtain ⟨a2, e3, s3⟩ := blend_bs h (k := .int) isW8 hr hn s1 (i 1) (fun j => decide (j + 5 < 128 / 8)) rfl
    obtain ⟨b2, e4, s4⟩ := blend_bs h (k := .int) isW8 hr hn (i 1) s2 (fun j => decide (j + 5 < 128 / 8)) rfl
    obtain ⟨c2, e5, s5⟩ := blend_bs h (k := .int) isW8 hr hn s2 s1 (fun j => decide (j + 5 < 128 / 8)) rfl
    obtain ⟨a, e6, s6⟩ := msh_bs h hsx (q := 1) (u := 16) isW8 rfl
      (s := fun p => [5, 16+0, 16+11, 6, 16+1, 16+12, 7, 16+2, 16+13, 8, 16+3, 16+14, 9, 16+4, 16+15, 10].getD p 0) (by decide) (by decide) hn s3 s4
    obtain ⟨b, e7, s7⟩ := msh_bs h hsx (q := 1) (u := 16) isW8 rfl
      (s := fun p => [5, 16+0, 16+11, 6, 16+1, 16+12, 7, 16+2, 16+13, 8, 16+3, 16+14, 9, 16+4, 16+15, 10].getD p 0) (by decide) (by decide) hn s4 s5
    obtain ⟨d, e8, s8⟩ := msh_bs h hsx (q := 1) (u := 16) isW8 rfl
      (s := fun p => [5, 16+0, 16+11, 6, 16+1, 16+12, 7, 16+2, 16+13, 8, 16+3, 16+14, 9, 16+4, 16+15, 10].getD p 0) (by decide) (by decide) hn s5 s3
    refine ⟨vec3 a b d, ?_, bs3 (s6.congr ?_) (s7.congr ?_) (s8.congr ?_)⟩
    · have em' : i_move_l c .int .r128 5 (Vec.splat 0xff : Vec 8 n) = _ := em
      unfold pack3_8
      rw [if_pos g]
      simp only [e1, e2, em', e3, e4, e5, e6, e7, e8, Option.bind_eq_bind, Option.bind_some]
    all_goals clear * -; decide +kernel
  · have i := fun q => allB_bs r.bytes x q
    have z := bs_zero (w := 8) (n := n) (allB r.bytes x) r.bytes
    obtain ⟨t0, e0, s0⟩ := zl_bs h (k := .int) isW8 hr hn (i 0) (i 1)
    obtain ⟨t1, e1, s1⟩ := zh_bs h (k := .int) isW8 hr hn (i 0) (i 1)
    obtain ⟨t2, e2, s2⟩ := zl_bs h (k := .int) isW8 hr hn (i 2) z
    obtain ⟨t3, e3, s3⟩ := zh_bs h (k := .int) isW8 hr hn (i 2) z
    obtain ⟨u0, f0, v0⟩ := bs_as2 iw16 rfl isW8 hn s0 s2 fun _ _ a b => zl_bs h (k := .int) iw16 hr16 rfl a b
    obtain ⟨u1, f1, v1⟩ := bs_as2 iw16 rfl isW8 hn s0 s2 fun _ _ a b => zh_bs h (k := .int) iw16 hr16 rfl a b
    obtain ⟨u2, f2, v2⟩ := bs_as2 iw16 rfl isW8 hn s1 s3 fun _ _ a b => zl_bs h (k := .int) iw16 hr16 rfl a b
    obtain ⟨u3, f3, v3⟩ := bs_as2 iw16 rfl isW8 hn s1 s3 fun _ _ a b => zh_bs h (k := .int) iw16 hr16 rfl a b
    obtain ⟨q0, g0, w0⟩ := squeeze8_bs h hr hn v0 (by clear * -; cases r <;> decide +kernel)
    obtain ⟨q1, g1, w1⟩ := squeeze8_bs h hr hn v1 (by clear * -; cases r <;> decide +kernel)
    obtain ⟨q2, g2, w2⟩ := squeeze8_bs h hr hn v2 (by clear * -; cases r <;> decide +kernel)
    obtain ⟨q3, g3, w3⟩ := squeeze8_bs h hr hn v3 (by clear * -; cases r <;> decide +kernel)
    obtain ⟨y, ey, hy⟩ := pack3Tail_bs h isW8 hr32 hn w0 w1 w2 w3 (by clear * -; cases r <;> decide +kernel)
      (by clear * -; cases r <;> decide +kernel) (packSel16 3 1 r.bytes) (by clear * -; cases r <;> decide +kernel)
      (by clear * -; cases r <;> decide +kernel) (by clear * -; cases r <;> decide +kernel)
    refine ⟨y, ?_, hy⟩
    unfold pack3_8
    rw [if_neg g]
    simp (config := { maxSteps := 2000000 }) only [e0, e1, e2, e3, f0, f1, f2, f3, g0, g1, g2, g3, ey, Option.bind_eq_bind, Option.bind_some]

theorem pack3_16_fs (hr : c.hasInt 16 r = true) (hn : n = r.lanes 16) :
    FS 3 r.bytes (pack3_16 (n := n) c r) (packSel16 3 2 r.bytes) := by
  have hr32 := has_le h iw16 iw32 hr (by decide)
  intro x
  by_cases g : c.altivec = true ∨ c.msa = true
  · obtain ⟨rfl, hs⟩ := am_r128 h (k := .int) iw16 hr g
    have hr : c.hasVec .int 16 .r128 = true := hr
    have hsx : c.sse2 = true → (c.ssse3 = true ∨ c.xop = true) := fun e => by rw [hs] at e; exact absurd e (by decide)
    have i := fun q => allB_bs Reg.r128.bytes x q
    obtain ⟨b1, e1, s1⟩ := align_bs h (k := .int) iw16 hr hn (i 1) (i 1) 5 (by decide) (by decide)
    obtain ⟨c1, e2, s2⟩ := align_bs h (k := .int) iw16 hr hn (i 2) (i 2) 2 (by decide) (by decide)
    have em := move_mask h (r := .r128) iw16 rfl hn 2 (by decide) (by decide)
    obtain ⟨a2, e3, s3⟩ := blend_bs h (k := .int) iw16 hr hn (i 0) s1 (fun j => decide (j + 2 < 128 / 16)) rfl
    obtain ⟨b2, e4, s4⟩ := blend_bs h (k := .int) iw16 hr hn s1 s2 (fun j => decide (j + 2 < 128 / 16)) rfl
    obtain ⟨c2, e5, s5⟩ := blend_bs h (k := .int) iw16 hr hn s2 (i 0) (fun j => decide (j + 2 < 128 / 16)) rfl
    obtain ⟨a, e6, s6⟩ := msh_bs h hsx (q := 2) (u := 8) iw16 rfl
      (s := fun p => [0, 8+3, 8+6, 1, 8+4, 8+7, 2, 8+5].getD p 0) (by decide) (by decide) hn s3 s4
    obtain ⟨b, e7, s7⟩ := msh_bs h hsx (q := 2) (u := 8) iw16 rfl
      (s := fun p => [0, 8+3, 8+6, 1, 8+4, 8+7, 2, 8+5].getD p 0) (by decide) (by decide) hn s5 s3
    obtain ⟨d, e8, s8⟩ := msh_bs h hsx (q := 2) (u := 8) iw16 rfl
      (s := fun p => [0, 8+3, 8+6, 1, 8+4, 8+7, 2, 8+5].getD p 0) (by decide) (by decide) hn s4 s5
    refine ⟨vec3 a b d, ?_, bs3 (s6.congr ?_) (s7.congr ?_) (s8.congr ?_)⟩
    · have em' : i_move_l c .int .r128 2 (Vec.splat 0xffff : Vec 16 n) = _ := em
      unfold pack3_16
      rw [if_pos g]
      simp only [e1, e2, em', e3, e4, e5, e6, e7, e8, Option.bind_eq_bind, Option.bind_some]
    all_goals clear * -; decide +kernel
  · have i := fun q => allB_bs r.bytes x q
    have z := bs_zero (w := 16) (n := n) (allB r.bytes x) r.bytes
    obtain ⟨t0, e0, s0⟩ := zl_bs h (k := .int) iw16 hr hn (i 0) (i 1)
    obtain ⟨t1, e1, s1⟩ := zh_bs h (k := .int) iw16 hr hn (i 0) (i 1)
    obtain ⟨t2, e2, s2⟩ := zl_bs h (k := .int) iw16 hr hn (i 2) z
    obtain ⟨t3, e3, s3⟩ := zh_bs h (k := .int) iw16 hr hn (i 2) z
    obtain ⟨u0, f0, v0⟩ := bs_as2 iw32 rfl iw16 hn s0 s2 fun _ _ a b => zl_bs h (k := .int) iw32 hr32 rfl a b
    obtain ⟨u1, f1, v1⟩ := bs_as2 iw32 rfl iw16 hn s0 s2 fun _ _ a b => zh_bs h (k := .int) iw32 hr32 rfl a b
    obtain ⟨u2, f2, v2⟩ := bs_as2 iw32 rfl iw16 hn s1 s3 fun _ _ a b => zl_bs h (k := .int) iw32 hr32 rfl a b
    obtain ⟨u3, f3, v3⟩ := bs_as2 iw32 rfl iw16 hn s1 s3 fun _ _ a b => zh_bs h (k := .int) iw32 hr32 rfl a b
    obtain ⟨q0, g0, w0⟩ := squeeze16_bs h hr hn v0 (by clear * -; cases r <;> decide +kernel)
    obtain ⟨q1, g1, w1⟩ := squeeze16_bs h hr hn v1 (by clear * -; cases r <;> decide +kernel)
    obtain ⟨q2, g2, w2⟩ := squeeze16_bs h hr hn v2 (by clear * -; cases r <;> decide +kernel)
    obtain ⟨q3, g3, w3⟩ := squeeze16_bs h hr hn v3 (by clear * -; cases r <;> decide +kernel)
    obtain ⟨y, ey, hy⟩ := pack3Tail_bs h iw16 hr32 hn w0 w1 w2 w3 (by clear * -; cases r <;> decide +kernel)
      (by clear * -; cases r <;> decide +kernel) (packSel16 3 2 r.bytes) (by clear * -; cases r <;> decide +kernel)
      (by clear * -; cases r <;> decide +kernel) (by clear * -; cases r <;> decide +kernel)
    refine ⟨y, ?_, hy⟩
    unfold pack3_16
    rw [if_neg g]
    simp (config := { maxSteps := 2000000 }) only [e0, e1, e2, e3, f0, f1, f2, f3, g0, g1, g2, g3, ey, Option.bind_eq_bind, Option.bind_some]

theorem unpack3_8_fs (hr : c.hasInt 8 r = true) (hn : n = r.lanes 8) :
    FS 3 r.bytes (unpack3_8 (n := n) c r) (unpackSel16 3 1 r.bytes) := by
  have hr16 := has_le h isW8 iw16 hr (by decide)
  intro x
  by_cases g : c.altivec = true ∨ c.msa = true
  · obtain ⟨rfl, hs⟩ := am_r128 h (k := .int) isW8 hr g
    have hr : c.hasVec .int 8 .r128 = true := hr
    have hsx : c.sse2 = true → (c.ssse3 = true ∨ c.xop = true) := fun e => by rw [hs] at e; exact absurd e (by decide)
    have i := fun q => allB_bs Reg.r128.bytes x q
    obtain ⟨a1, e6, s6⟩ := msh_bs (A := allB Reg.r128.bytes x) h hsx (q := 1) (u := 16) isW8 rfl
      (s := fun p => [1, 4, 7, 10, 13, 16+0, 16+3, 16+6, 16+9, 16+12, 16+15, 2, 5, 8, 11, 14].getD p 0) (by decide) (by decide) hn (i 2) (i 0)
    obtain ⟨b1, e7, s7⟩ := msh_bs (A := allB Reg.r128.bytes x) h hsx (q := 1) (u := 16) isW8 rfl
      (s := fun p => [1, 4, 7, 10, 13, 16+0, 16+3, 16+6, 16+9, 16+12, 16+15, 2, 5, 8, 11, 14].getD p 0) (by decide) (by decide) hn (i 0) (i 1)
    obtain ⟨c1, e8, s8⟩ := msh_bs (A := allB Reg.r128.bytes x) h hsx (q := 1) (u := 16) isW8 rfl
      (s := fun p => [1, 4, 7, 10, 13, 16+0, 16+3, 16+6, 16+9, 16+12, 16+15, 2, 5, 8, 11, 14].getD p 0) (by decide) (by decide) hn (i 1) (i 2)
    have em := move_mask h (r := .r128) isW8 rfl hn 5 (by decide) (by decide)
    obtain ⟨a2, e3, s3⟩ := blend_bs h (k := .int) (r := .r128) isW8 hr hn s6 s8 (fun j => decide (j + 5 < 128 / 8)) rfl
    obtain ⟨b2, e4, s4⟩ := blend_bs h (k := .int) (r := .r128) isW8 hr hn s7 s6 (fun j => decide (j + 5 < 128 / 8)) rfl
    obtain ⟨c2, e5, s5⟩ := blend_bs h (k := .int) (r := .r128) isW8 hr hn s8 s7 (fun j => decide (j + 5 < 128 / 8)) rfl
    obtain ⟨a, e1, s1⟩ := align_bs h (k := .int) isW8 hr hn s3 s3 5 (by decide) (by decide)
    obtain ⟨d, e2, s2⟩ := align_bs h (k := .int) isW8 hr hn s5 s5 11 (by decide) (by decide)
    refine ⟨vec3 a b2 d, ?_, bs3 (s1.congr ?_) (s4.congr ?_) (s2.congr ?_)⟩
    · have em' : i_move_l c .int .r128 5 (Vec.splat 0xff : Vec 8 n) = _ := em
      unfold unpack3_8
      rw [if_pos g]
      simp only [e1, e2, em', e3, e4, e5, e6, e7, e8, Option.bind_eq_bind, Option.bind_some]
    all_goals clear * -; decide +kernel
  · have i := fun q => allB_bs r.bytes x q
    obtain ⟨t1, e1, s1⟩ := align_bs h (k := .int) isW8 hr hn (i 0) (i 1) 12 (by decide) (by decide)
    obtain ⟨t2, e2, s2⟩ := align_bs h (k := .int) isW8 hr hn (i 1) (i 2) 8 (by decide) (by decide)
    obtain ⟨t3, e3, s3⟩ := ml_bs h (k := .int) isW8 hr hn (i 2) 4 (by decide) (by decide)
    obtain ⟨b0, f0, v0⟩ := zl_bs h (k := .int) isW8 hr hn (i 0) s1
    obtain ⟨b1, f1, v1⟩ := zl_bs h (k := .int) isW8 hr hn s2 s3
    obtain ⟨b2, f2, v2⟩ := zh_bs h (k := .int) isW8 hr hn (i 0) s1
    obtain ⟨b3, f3, v3⟩ := zh_bs h (k := .int) isW8 hr hn s2 s3
    obtain ⟨u0, g0, w0⟩ := bs_as2 iw16 rfl isW8 hn v0 v1 fun _ _ a b => zl_bs h (k := .int) iw16 hr16 rfl a b
    obtain ⟨u1, g1, w1⟩ := bs_as2 iw16 rfl isW8 hn v0 v1 fun _ _ a b => zh_bs h (k := .int) iw16 hr16 rfl a b
    obtain ⟨u2, g2, w2⟩ := bs_as2 iw16 rfl isW8 hn v2 v3 fun _ _ a b => zl_bs h (k := .int) iw16 hr16 rfl a b
    obtain ⟨t1', e1', s1'⟩ := align_bs h (k := .int) isW8 hr hn w0 w1 12 (by decide) (by decide)
    obtain ⟨t2', e2', s2'⟩ := align_bs h (k := .int) isW8 hr hn w1 w2 8 (by decide) (by decide)
    obtain ⟨t3', e3', s3'⟩ := ml_bs h (k := .int) isW8 hr hn w2 4 (by decide) (by decide)
    obtain ⟨b0', f0', v0'⟩ := zl_bs h (k := .int) isW8 hr hn w0 s1'
    obtain ⟨b1', f1', v1'⟩ := zl_bs h (k := .int) isW8 hr hn s2' s3'
    obtain ⟨b2', f2', v2'⟩ := zh_bs h (k := .int) isW8 hr hn w0 s1'
    obtain ⟨b3', f3', v3'⟩ := zh_bs h (k := .int) isW8 hr hn s2' s3'
    obtain ⟨u0', g0', w0'⟩ := bs_as2 iw16 rfl isW8 hn v0' v1' fun _ _ a b => zl_bs h (k := .int) iw16 hr16 rfl a b
    obtain ⟨u1', g1', w1'⟩ := bs_as2 iw16 rfl isW8 hn v0' v1' fun _ _ a b => zh_bs h (k := .int) iw16 hr16 rfl a b
    obtain ⟨u2', g2', w2'⟩ := bs_as2 iw16 rfl isW8 hn v2' v3' fun _ _ a b => zl_bs h (k := .int) iw16 hr16 rfl a b
    refine ⟨vec3 u0' u1' u2', ?_, bs3 (w0'.congr ?_) (w1'.congr ?_) (w2'.congr ?_)⟩
    · unfold unpack3_8
      rw [if_neg g]
      refine (bind_of e1 _).trans ?_
      refine (bind_of e2 _).trans ?_
      refine (bind_of e3 _).trans ?_
      refine (bind_of f0 _).trans ?_
      refine (bind_of f1 _).trans ?_
      refine (bind_of f2 _).trans ?_
      refine (bind_of f3 _).trans ?_
      refine (bind_of g0 _).trans ?_
      refine (bind_of g1 _).trans ?_
      refine (bind_of g2 _).trans ?_
      simp (config := { maxSteps := 2000000 }) only [e1', e2', e3', f0', f1', f2', f3', g0', g1', g2', Option.bind_eq_bind, Option.bind_some]
    all_goals clear * -; cases r <;> decide +kernel

theorem unpack3_16_fs (hr : c.hasInt 16 r = true) (hn : n = r.lanes 16) :
    FS 3 r.bytes (unpack3_16 (n := n) c r) (unpackSel16 3 2 r.bytes) := by
  have hr32 := has_le h iw16 iw32 hr (by decide)
  have hr64 := has_le h iw16 iw64 hr (by decide)
  intro x
  by_cases g : c.altivec = true ∨ c.msa = true
  · obtain ⟨rfl, hs⟩ := am_r128 h (k := .int) iw16 hr g
    have hr : c.hasVec .int 16 .r128 = true := hr
    have hsx : c.sse2 = true → (c.ssse3 = true ∨ c.xop = true) := fun e => by rw [hs] at e; exact absurd e (by decide)
    have i := fun q => allB_bs Reg.r128.bytes x q
    obtain ⟨a1, e6, s6⟩ := msh_bs (A := allB Reg.r128.bytes x) h hsx (q := 2) (u := 8) iw16 rfl
      (s := fun p => [0, 3, 6, 8+1, 8+4, 8+7, 8+2, 8+5].getD p 0) (by decide) (by decide) hn (i 0) (i 1)
    obtain ⟨c1, e7, s7⟩ := msh_bs (A := allB Reg.r128.bytes x) h hsx (q := 2) (u := 8) iw16 rfl
      (s := fun p => [0, 3, 6, 8+1, 8+4, 8+7, 8+2, 8+5].getD p 0) (by decide) (by decide) hn (i 1) (i 2)
    obtain ⟨b1, e8, s8⟩ := msh_bs (A := allB Reg.r128.bytes x) h hsx (q := 2) (u := 8) iw16 rfl
      (s := fun p => [0, 3, 6, 8+1, 8+4, 8+7, 8+2, 8+5].getD p 0) (by decide) (by decide) hn (i 2) (i 0)
    have em := move_mask h (r := .r128) iw16 rfl hn 2 (by decide) (by decide)
    obtain ⟨a2, e3, s3⟩ := blend_bs h (k := .int) (r := .r128) iw16 hr hn s6 s7 (fun j => decide (j + 2 < 128 / 16)) rfl
    obtain ⟨b2, e4, s4⟩ := blend_bs h (k := .int) (r := .r128) iw16 hr hn s8 s6 (fun j => decide (j + 2 < 128 / 16)) rfl
    obtain ⟨c2, e5, s5⟩ := blend_bs h (k := .int) (r := .r128) iw16 hr hn s7 s8 (fun j => decide (j + 2 < 128 / 16)) rfl
    obtain ⟨b, e1, s1⟩ := align_bs h (k := .int) iw16 hr hn s4 s4 3 (by decide) (by decide)
    obtain ⟨d, e2, s2⟩ := align_bs h (k := .int) iw16 hr hn s5 s5 6 (by decide) (by decide)
    refine ⟨vec3 a2 b d, ?_, bs3 (s3.congr ?_) (s1.congr ?_) (s2.congr ?_)⟩
    · have em' : i_move_l c .int .r128 2 (Vec.splat 0xffff : Vec 16 n) = _ := em
      unfold unpack3_16
      rw [if_pos g]
      simp only [e1, e2, em', e3, e4, e5, e6, e7, e8, Option.bind_eq_bind, Option.bind_some]
    all_goals clear * -; decide +kernel
  · have i := fun q => allB_bs r.bytes x q
    obtain ⟨t1, e1, s1⟩ := align_bs h (k := .int) iw16 hr hn (i 0) (i 1) 6 (by decide) (by decide)
    obtain ⟨t2, e2, s2⟩ := align_bs h (k := .int) iw16 hr hn (i 1) (i 2) 4 (by decide) (by decide)
    obtain ⟨t3, e3, s3⟩ := ml_bs h (k := .int) iw16 hr hn (i 2) 2 (by decide) (by decide)
    obtain ⟨b0, f0, v0⟩ := zl_bs h (k := .int) iw16 hr hn (i 0) s1
    obtain ⟨b1, f1, v1⟩ := zl_bs h (k := .int) iw16 hr hn s2 s3
    obtain ⟨b2, f2, v2⟩ := zh_bs h (k := .int) iw16 hr hn (i 0) s1
    obtain ⟨b3, f3, v3⟩ := zh_bs h (k := .int) iw16 hr hn s2 s3
    obtain ⟨u0, g0, w0⟩ := bs_as2 iw32 rfl iw16 hn v0 v1 fun _ _ a b => zl_bs h (k := .int) iw32 hr32 rfl a b
    obtain ⟨u1, g1, w1⟩ := bs_as2 iw32 rfl iw16 hn v0 v1 fun _ _ a b => zh_bs h (k := .int) iw32 hr32 rfl a b
    obtain ⟨u2, g2, w2⟩ := bs_as2 iw32 rfl iw16 hn v2 v3 fun _ _ a b => zl_bs h (k := .int) iw32 hr32 rfl a b
    obtain ⟨t1', e1', s1'⟩ := bs_as2 iw64 rfl iw16 hn w0 w1 fun _ _ a b => sh1_bs h (k := .int) hr64 rfl a b 1 0 (by decide) (by decide)
    obtain ⟨t2', e2', s2'⟩ := bs_as1 iw64 rfl iw16 hn w1 fun _ a => splat2_bs h (k := .int) hr64 rfl a 1 (by decide)
    obtain ⟨a, f0', v0'⟩ := zl_bs h (k := .int) iw16 hr hn w0 s2'
    obtain ⟨b, f1', v1'⟩ := zl_bs h (k := .int) iw16 hr hn s1' w2
    obtain ⟨d, f2', v2'⟩ := zh_bs h (k := .int) iw16 hr hn s1' w2
    refine ⟨vec3 a b d, ?_, bs3 (v0'.congr ?_) (v1'.congr ?_) (v2'.congr ?_)⟩
    · unfold unpack3_16
      rw [if_neg g]
      refine (bind_of e1 _).trans ?_
      refine (bind_of e2 _).trans ?_
      refine (bind_of e3 _).trans ?_
      refine (bind_of f0 _).trans ?_
      refine (bind_of f1 _).trans ?_
      refine (bind_of f2 _).trans ?_
      refine (bind_of f3 _).trans ?_
      simp (config := { maxSteps := 2000000 }) only [g0, g1, g2, e1', e2', f0', f1', f2', Option.bind_eq_bind, Option.bind_some]
    all_goals clear * -; cases r <;> decide +kernel

theorem mem_pack3_fs {k : Kind} (gnuc : Bool) (hw : k.okW w) (hr : c.hasVec k w r = true) (hn : n = r.lanes w) :
    FS 3 r.bytes (mem_pack3 (w := w) (n := n) c gnuc k r) (packSel 3 (w / 8) r.bytes) := by
  have hl := pack3Lanes_fs h hw hr hn
  have fin : ∀ {op : (Fin 3 → Vec w n) → Option (Fin 3 → Vec w n)}, FS 3 r.bytes op (packSel16 3 (w / 8) r.bytes) →
      FS 3 r.bytes (fun x => (op x).bind (pack3Lanes c k r)) (packSel 3 (w / 8) r.bytes) := fun ho => by
    refine (ho.comp hl (by clear * -; cases r <;> decide +kernel)).congr ?_
    clear * - hw
    rcases hw.isW with e | e | e | e <;> subst e <;> cases r <;> decide +kernel
  have lift : ∀ {op : (Fin 3 → Vec w n) → Option (Fin 3 → Vec w n)},
      (∀ x, mem_pack3 c gnuc k r x = (op x).bind (pack3Lanes c k r)) → FS 3 r.bytes op (packSel16 3 (w / 8) r.bytes) →
      FS 3 r.bytes (mem_pack3 (w := w) (n := n) c gnuc k r) (packSel 3 (w / 8) r.bytes) := fun e ho => by
    rw [show mem_pack3 (w := w) (n := n) c gnuc k r = _ from funext e]
    exact fin ho
  rcases okW_cases hw with e | e | ⟨e2, e | e⟩
  · subst e; exact lift (op := pack3_64 c k r) (fun x => rfl) (pack3_64_fs h hr hn)
  · subst e; exact lift (op := pack3_32 c gnuc k r) (fun x => rfl) (pack3_32_fs h gnuc hw hr hn)
  · subst e e2; exact lift (op := pack3_8 c r) (fun x => rfl) (pack3_8_fs h hr hn)
  · subst e e2; exact lift (op := pack3_16 c r) (fun x => rfl) (pack3_16_fs h hr hn)

theorem mem_unpack3_fs {k : Kind} (hw : k.okW w) (hr : c.hasVec k w r = true) (hn : n = r.lanes w) :
    FS 3 r.bytes (mem_unpack3 (w := w) (n := n) c k r) (unpackSel 3 (w / 8) r.bytes) := by
  have hl := unpack3Lanes_fs h hw hr hn
  have fin : ∀ {op : (Fin 3 → Vec w n) → Option (Fin 3 → Vec w n)}, FS 3 r.bytes op (unpackSel16 3 (w / 8) r.bytes) →
      FS 3 r.bytes (fun x => (unpack3Lanes c k r x).bind op) (unpackSel 3 (w / 8) r.bytes) := fun ho => by
    refine (hl.comp ho (by clear * - hw; rcases hw.isW with e | e | e | e <;> subst e <;> cases r <;> decide +kernel)).congr ?_
    clear * - hw
    rcases hw.isW with e | e | e | e <;> subst e <;> cases r <;> decide +kernel
  have lift : ∀ {op : (Fin 3 → Vec w n) → Option (Fin 3 → Vec w n)},
      (∀ x, mem_unpack3 c k r x = (unpack3Lanes c k r x).bind op) → FS 3 r.bytes op (unpackSel16 3 (w / 8) r.bytes) →
      FS 3 r.bytes (mem_unpack3 (w := w) (n := n) c k r) (unpackSel 3 (w / 8) r.bytes) := fun e ho => by
    rw [show mem_unpack3 (w := w) (n := n) c k r = _ from funext e]
    exact fin ho
  rcases okW_cases hw with e | e | ⟨e2, e | e⟩
  · subst e; exact lift (op := unpack3_64 c k r) (fun x => rfl) (unpack3_64_fs h hr hn)
  · subst e; exact lift (op := unpack3_32 c k r) (fun x => rfl) (unpack3_32_fs h hw hr hn)
  · subst e e2; exact lift (op := unpack3_8 c r) (fun x => rfl) (unpack3_8_fs h hr hn)
  · subst e e2; exact lift (op := unpack3_16 c r) (fun x => rfl) (unpack3_16_fs h hr hn)

end

end Simdpp
