import Verif.Props.MemPackSel

/-!
# Interleaving and de-interleaving two and four vectors
-/

namespace Simdpp
open Sh Spec

variable {w v n N S M : Nat}

theorem vec2_0 {α : Type} (a b : α) : vec2 a b 0 = a := rfl
theorem vec2_1 {α : Type} (a b : α) : vec2 a b 1 = b := rfl
theorem vec4_0 {α : Type} (a b d e : α) : vec4 a b d e 0 = a := rfl
theorem vec4_1 {α : Type} (a b d e : α) : vec4 a b d e 1 = b := rfl
theorem vec4_2 {α : Type} (a b d e : α) : vec4 a b d e 2 = d := rfl
theorem vec4_3 {α : Type} (a b d e : α) : vec4 a b d e 3 = e := rfl

/-- The result registers, one by one. -/
theorem bs2 {A : Vec 8 S} {m : Nat} {a b : Vec w n} {F : Nat → Nat → Nat} (ha : BS A m a (F 0)) (hb : BS A m b (F 1)) :
    ∀ q : Fin 2, BS A m (vec2 a b q) (F q.val) := fun q => by
  rcases q with ⟨q, hq⟩
  have : q = 0 ∨ q = 1 := by omega
  rcases this with rfl | rfl
  · exact ha
  · exact hb
theorem bs4 {A : Vec 8 S} {m : Nat} {a b d e : Vec w n} {F : Nat → Nat → Nat} (ha : BS A m a (F 0)) (hb : BS A m b (F 1))
    (hd : BS A m d (F 2)) (he : BS A m e (F 3)) : ∀ q : Fin 4, BS A m (vec4 a b d e q) (F q.val) := fun q => by
  rcases q with ⟨q, hq⟩
  have : q = 0 ∨ q = 1 ∨ q = 2 ∨ q = 3 := by omega
  rcases this with rfl | rfl | rfl | rfl
  · exact ha
  · exact hb
  · exact hd
  · exact he

section
variable {c : Cfg} (h : c.Ok) {k : Kind} {r : Reg}
include h

theorem mem_pack2_fs (hw : k.okW w) (hr : c.hasVec k w r = true) (hn : n = r.lanes w) :
    FS 2 r.bytes (mem_pack2 (w := w) (n := n) c k r) (packSel 2 (w / 8) r.bytes) := by
  intro x
  obtain ⟨c1, e1, s1⟩ := zl_bs h hw hr hn (allB_bs r.bytes x 0) (allB_bs r.bytes x 1)
  obtain ⟨c2, e2, s2⟩ := zh_bs h hw hr hn (allB_bs r.bytes x 0) (allB_bs r.bytes x 1)
  cases r
  · refine ⟨vec2 c1 c2, ?_, bs2 (s1.congr ?_) (s2.congr ?_)⟩
    · simp only [mem_pack2, e1, e2, Option.bind_eq_bind, Option.bind_some]
    all_goals clear s1 s2 e1 e2 x c1 c2 hr hn; rcases hw.isW with e | e | e | e <;> subst e <;> decide +kernel
  · obtain ⟨a, e3, s3⟩ := sh128_bs hw hr hn s1 s2 0 0 (by decide) (by decide)
    obtain ⟨b, e4, s4⟩ := sh128_bs hw hr hn s1 s2 1 1 (by decide) (by decide)
    refine ⟨vec2 a b, ?_, bs2 (s3.congr ?_) (s4.congr ?_)⟩
    · simp only [mem_pack2, e1, e2, e3, e4, Option.bind_eq_bind, Option.bind_some]
    all_goals clear * - hw; rcases hw.isW with e | e | e | e <;> subst e <;> decide +kernel
  · obtain ⟨d1, e3, s3⟩ := sh2_128_bs hw hr hn s1 s2 0 1 0 1 (by decide) (by decide) (by decide) (by decide)
    obtain ⟨d2, e4, s4⟩ := sh2_128_bs hw hr hn s1 s2 2 3 2 3 (by decide) (by decide) (by decide) (by decide)
    obtain ⟨a, e5, s5⟩ := sh2_128_bs hw hr hn s3 s3 0 2 1 3 (by decide) (by decide) (by decide) (by decide)
    obtain ⟨b, e6, s6⟩ := sh2_128_bs hw hr hn s4 s4 0 2 1 3 (by decide) (by decide) (by decide) (by decide)
    refine ⟨vec2 a b, ?_, bs2 (s5.congr ?_) (s6.congr ?_)⟩
    · simp only [mem_pack2, permute4_128, e1, e2, e3, e4, e5, e6, Option.bind_eq_bind, Option.bind_some]
    all_goals clear * - hw; rcases hw.isW with e | e | e | e <;> subst e <;> decide +kernel

theorem mem_unpack2_fs (hw : k.okW w) (hr : c.hasVec k w r = true) (hn : n = r.lanes w) :
    FS 2 r.bytes (mem_unpack2 (w := w) (n := n) c k r) (unpackSel 2 (w / 8) r.bytes) := by
  intro x
  cases r
  · obtain ⟨a, e1, s1⟩ := ul_bs h hw hr hn (allB_bs _ x 0) (allB_bs _ x 1)
    obtain ⟨b, e2, s2⟩ := uh_bs h hw hr hn (allB_bs _ x 0) (allB_bs _ x 1)
    refine ⟨vec2 a b, ?_, bs2 (s1.congr ?_) (s2.congr ?_)⟩
    · simp only [mem_unpack2, e1, e2, Option.bind_eq_bind, Option.bind_some]
    all_goals clear * - hw; rcases hw.isW with e | e | e | e <;> subst e <;> decide +kernel
  · obtain ⟨c1, e1, s1⟩ := sh128_bs (A := allB Reg.r256.bytes x) hw hr hn (allB_bs _ x 0) (allB_bs _ x 1) 0 0 (by decide) (by decide)
    obtain ⟨c2, e2, s2⟩ := sh128_bs (A := allB Reg.r256.bytes x) hw hr hn (allB_bs _ x 0) (allB_bs _ x 1) 1 1 (by decide) (by decide)
    obtain ⟨a, e3, s3⟩ := ul_bs h (r := .r256) hw hr hn s1 s2
    obtain ⟨b, e4, s4⟩ := uh_bs h (r := .r256) hw hr hn s1 s2
    refine ⟨vec2 a b, ?_, bs2 (s3.congr ?_) (s4.congr ?_)⟩
    · simp only [mem_unpack2, e1, e2, vec2_0, vec2_1, e3, e4, Option.bind_eq_bind, Option.bind_some]
    all_goals clear * - hw; rcases hw.isW with e | e | e | e <;> subst e <;> decide +kernel
  · obtain ⟨c1, e1, s1⟩ := sh2_128_bs (A := allB Reg.r512.bytes x) hw hr hn (allB_bs _ x 0) (allB_bs _ x 1) 0 2 0 2 (by decide) (by decide) (by decide) (by decide)
    obtain ⟨c2, e2, s2⟩ := sh2_128_bs (A := allB Reg.r512.bytes x) hw hr hn (allB_bs _ x 0) (allB_bs _ x 1) 1 3 1 3 (by decide) (by decide) (by decide) (by decide)
    obtain ⟨a, e3, s3⟩ := ul_bs h (r := .r512) hw hr hn s1 s2
    obtain ⟨b, e4, s4⟩ := uh_bs h (r := .r512) hw hr hn s1 s2
    refine ⟨vec2 a b, ?_, bs2 (s3.congr ?_) (s4.congr ?_)⟩
    · simp only [mem_unpack2, e1, e2, vec2_0, vec2_1, e3, e4, Option.bind_eq_bind, Option.bind_some]
    all_goals clear * - hw; rcases hw.isW with e | e | e | e <;> subst e <;> decide +kernel

/-! ## Four vectors -/

theorem pack4Lanes_fs (hw : k.okW w) (hr : c.hasVec k w r = true) (hn : n = r.lanes w) :
    FS 4 r.bytes (pack4Lanes (w := w) (n := n) c k r) (fun q t => packSel 4 16 r.bytes q t) := by
  intro x
  cases r
  · refine ⟨x, rfl, fun q => (allB_bs _ x q).congr ?_⟩
    have : ∀ q : Fin 4, ∀ t, t < Reg.r128.bytes → q.val * Reg.r128.bytes + t = packSel 4 16 Reg.r128.bytes q.val t := by decide +kernel
    exact this q
  · have i := fun q => allB_bs Reg.r256.bytes x q
    obtain ⟨a, e1, s1⟩ := sh128_bs hw hr hn (i 0) (i 1) 0 0 (by decide) (by decide)
    obtain ⟨b, e2, s2⟩ := sh128_bs hw hr hn (i 2) (i 3) 0 0 (by decide) (by decide)
    obtain ⟨d, e3, s3⟩ := sh128_bs hw hr hn (i 0) (i 1) 1 1 (by decide) (by decide)
    obtain ⟨e, e4, s4⟩ := sh128_bs hw hr hn (i 2) (i 3) 1 1 (by decide) (by decide)
    refine ⟨vec4 a b d e, ?_, bs4 (s1.congr ?_) (s2.congr ?_) (s3.congr ?_) (s4.congr ?_)⟩
    · simp only [pack4Lanes, e1, e2, e3, e4, Option.bind_eq_bind, Option.bind_some]
    all_goals clear * -; decide +kernel
  · have i := fun q => allB_bs Reg.r512.bytes x q
    obtain ⟨t1, e1, s1⟩ := sh2_128_bs hw hr hn (i 0) (i 1) 0 2 0 2 (by decide) (by decide) (by decide) (by decide)
    obtain ⟨t2, e2, s2⟩ := sh2_128_bs hw hr hn (i 0) (i 1) 1 3 1 3 (by decide) (by decide) (by decide) (by decide)
    obtain ⟨t3, e3, s3⟩ := sh2_128_bs hw hr hn (i 2) (i 3) 0 2 0 2 (by decide) (by decide) (by decide) (by decide)
    obtain ⟨t4, e4, s4⟩ := sh2_128_bs hw hr hn (i 2) (i 3) 1 3 1 3 (by decide) (by decide) (by decide) (by decide)
    obtain ⟨a, e5, s5⟩ := sh2_128_bs hw hr hn s1 s3 0 2 0 2 (by decide) (by decide) (by decide) (by decide)
    obtain ⟨b, e6, s6⟩ := sh2_128_bs hw hr hn s2 s4 0 2 0 2 (by decide) (by decide) (by decide) (by decide)
    obtain ⟨d, e7, s7⟩ := sh2_128_bs hw hr hn s1 s3 1 3 1 3 (by decide) (by decide) (by decide) (by decide)
    obtain ⟨e, e8, s8⟩ := sh2_128_bs hw hr hn s2 s4 1 3 1 3 (by decide) (by decide) (by decide) (by decide)
    refine ⟨vec4 a b d e, ?_, bs4 (s5.congr ?_) (s6.congr ?_) (s7.congr ?_) (s8.congr ?_)⟩
    · simp only [pack4Lanes, e1, e2, e3, e4, e5, e6, e7, e8, Option.bind_eq_bind, Option.bind_some]
    all_goals clear * -; decide +kernel

theorem unpack4Lanes_fs (hw : k.okW w) (hr : c.hasVec k w r = true) (hn : n = r.lanes w) :
    FS 4 r.bytes (unpack4Lanes (w := w) (n := n) c k r) (fun q t => unpackSel 4 16 r.bytes q t) := by
  intro x
  cases r
  · refine ⟨x, rfl, fun q => (allB_bs _ x q).congr ?_⟩
    have : ∀ q : Fin 4, ∀ t, t < Reg.r128.bytes → q.val * Reg.r128.bytes + t = unpackSel 4 16 Reg.r128.bytes q.val t := by decide +kernel
    exact this q
  · have i := fun q => allB_bs Reg.r256.bytes x q
    obtain ⟨a, e1, s1⟩ := sh128_bs hw hr hn (i 0) (i 2) 0 0 (by decide) (by decide)
    obtain ⟨b, e2, s2⟩ := sh128_bs hw hr hn (i 0) (i 2) 1 1 (by decide) (by decide)
    obtain ⟨d, e3, s3⟩ := sh128_bs hw hr hn (i 1) (i 3) 0 0 (by decide) (by decide)
    obtain ⟨e, e4, s4⟩ := sh128_bs hw hr hn (i 1) (i 3) 1 1 (by decide) (by decide)
    refine ⟨vec4 a b d e, ?_, bs4 (s1.congr ?_) (s2.congr ?_) (s3.congr ?_) (s4.congr ?_)⟩
    · simp only [unpack4Lanes, e1, e2, e3, e4, Option.bind_eq_bind, Option.bind_some]
    all_goals clear * -; decide +kernel
  · have i := fun q => allB_bs Reg.r512.bytes x q
    obtain ⟨t1, e1, s1⟩ := sh2_128_bs hw hr hn (i 0) (i 1) 0 2 0 2 (by decide) (by decide) (by decide) (by decide)
    obtain ⟨t2, e2, s2⟩ := sh2_128_bs hw hr hn (i 0) (i 1) 1 3 1 3 (by decide) (by decide) (by decide) (by decide)
    obtain ⟨t3, e3, s3⟩ := sh2_128_bs hw hr hn (i 2) (i 3) 0 2 0 2 (by decide) (by decide) (by decide) (by decide)
    obtain ⟨t4, e4, s4⟩ := sh2_128_bs hw hr hn (i 2) (i 3) 1 3 1 3 (by decide) (by decide) (by decide) (by decide)
    obtain ⟨a, e5, s5⟩ := sh2_128_bs hw hr hn s1 s3 0 2 0 2 (by decide) (by decide) (by decide) (by decide)
    obtain ⟨b, e6, s6⟩ := sh2_128_bs hw hr hn s2 s4 0 2 0 2 (by decide) (by decide) (by decide) (by decide)
    obtain ⟨d, e7, s7⟩ := sh2_128_bs hw hr hn s1 s3 1 3 1 3 (by decide) (by decide) (by decide) (by decide)
    obtain ⟨e, e8, s8⟩ := sh2_128_bs hw hr hn s2 s4 1 3 1 3 (by decide) (by decide) (by decide) (by decide)
    refine ⟨vec4 a b d e, ?_, bs4 (s5.congr ?_) (s6.congr ?_) (s7.congr ?_) (s8.congr ?_)⟩
    · simp only [unpack4Lanes, e1, e2, e3, e4, e5, e6, e7, e8, Option.bind_eq_bind, Option.bind_some]
    all_goals clear * -; decide +kernel

end

/-- A family whose lanes are lanes of the given family. -/
theorem FS.of_lanes {r : Reg} (hw : IsW w) (hn : n = r.lanes w) {op : (Fin M → Vec w n) → Option (Fin M → Vec w n)} (src idx : Nat → Nat → Nat)
    (H : ∀ x, ∃ y, op x = some y ∧ ∀ q : Fin M, ∀ j, j < n → idx q.val j < n ∧ ∃ hs : src q.val j < M, (y q).at_ j = (x ⟨src q.val j, hs⟩).at_ (idx q.val j)) :
    FS M r.bytes op (fun q t => src q (t / (w / 8)) * r.bytes + (idx q (t / (w / 8)) * (w / 8) + t % (w / 8))) := fun x => by
  obtain ⟨y, e, hy⟩ := H x
  refine ⟨y, e, fun q t ht => ?_⟩
  have hb : 0 < w / 8 ∧ w = w / 8 * 8 := by rcases hw with e | e | e | e <;> subst e <;> decide
  have hm := lanes_bytes hw hn
  have h1 : t / (w / 8) < n := Nat.div_lt_of_lt_mul (by rw [Nat.mul_comm, ← hm]; exact ht)
  obtain ⟨h2, hs, e1⟩ := hy q _ h1
  have h3 : idx q.val (t / (w / 8)) * (w / 8) + t % (w / 8) < r.bytes := by
    have : (idx q.val (t / (w / 8)) + 1) * (w / 8) ≤ n * (w / 8) := Nat.mul_le_mul_right _ h2
    have := Nat.mod_lt t hb.1
    rw [Nat.add_mul, Nat.one_mul] at *
    omega
  dsimp only
  rw [recast_at (by decide) hb.1 hb.2 hm, e1]
  refine Eq.trans ?_ (allB_at x ⟨_, hs⟩ h3).symm
  rw [recast_at (by decide) hb.1 hb.2 hm, Nat.mul_comm (idx _ _), Nat.mul_add_div hb.1, Nat.mul_add_mod,
      Nat.div_eq_of_lt (Nat.mod_lt _ hb.1), Nat.mod_eq_of_lt (Nat.mod_lt _ hb.1), Nat.add_zero]

theorem tr_lanes {r : Reg} (hM : 0 < M) (hd : M ∣ n) (x : Fin M → Vec w n) (q : Fin M) {j : Nat} (hj : j < n) :
    j / M * M + q.val < n ∧ ∃ hs : j % M < M, (tr x q).at_ j = (x ⟨j % M, hs⟩).at_ (j / M * M + q.val) :=
  ⟨block_lt hd hj q.isLt, Nat.mod_lt _ hM, tr_at hM x q hj⟩

section
variable {c : Cfg} (h : c.Ok) {k : Kind} {r : Reg}
include h

theorem transpose4_fs (hr : c.hasVec k 32 r = true) (hn : n = r.lanes 32) :
    FS 4 r.bytes (i_transpose4_32 (n := n) c k r) (packSel16 4 4 r.bytes) := by
  refine (FS.of_lanes (r := r) iw32 hn (fun q j => j % 4) (fun q j => j / 4 * 4 + q) fun x =>
    ⟨tr x, i_transpose4_32_eq h hr hn x, fun q j hj => tr_lanes (r := r) (by decide) (by subst hn; cases r <;> decide) x q hj⟩).congr ?_
  clear * -
  cases r <;> decide +kernel

theorem transpose4As32_fs (hr : c.hasInt 32 r = true) (hn : n = r.lanes 8) :
    FS 4 r.bytes (transpose4As32 (n := n) c r) (packSel16 4 4 r.bytes) := fun x => by
  obtain ⟨y, e, b⟩ := transpose4_fs h (k := .int) hr rfl (fun q => (x q).recast 32 (r.lanes 32))
  have h1 : 8 * r.bytes = 32 * r.lanes 32 := by cases r <;> rfl
  have h2 : 8 * r.bytes = 8 * n := by subst hn; cases r <;> rfl
  have ea : allB r.bytes (fun q => (x q).recast 32 (r.lanes 32)) = allB r.bytes x := by
    unfold allB
    funext i
    rw [Vec.recast_trans _ (by decide) (by omega)]
  rw [ea] at b
  refine ⟨fun q => (y q).recast 8 n, ?_, fun q => (b q).recast 8 n (by decide) (by omega)⟩
  unfold transpose4As32
  rw [e]; rfl

theorem transpose_inplace_bs {A : Vec 8 S} {f : Nat → Nat} (hs : r = .r128 → (c.ssse3 = true ∨ c.altivec = true ∨ c.msa = true)) (hr : c.hasInt 8 r = true)
    (hn : n = r.lanes 8) {x : Vec 8 n} (hx : BS A r.bytes x f) :
    ∃ z, transpose_inplace c r x = some z ∧
      BS A r.bytes z (gsel 16 S (bIdx [0, 4, 8, 12, 1, 5, 9, 13, 2, 6, 10, 14, 3, 7, 11, 15]) f f) := by
  unfold transpose_inplace
  rw [if_neg (by tauto)]
  refine pb_bs h (fun hs2 => ?_) hr hn hx _ (by decide)
  cases r
  · have hs := hs rfl
    by_contra hc
    have hc : c.ssse3 = false := by simpa using hc
    rcases hs with g | g | g
    · rw [hc] at g; exact absurd g (by decide)
    · cfg_absurd h
    · cfg_absurd h
  · have hr : c.avx2 = true := hr
    obtain ⟨o1, o2, o3, o4, o5, o6, o7, o8, o9, o10, o11, o12, o13, o14, o15, o16, o17, o18, o19⟩ := h; grind
  · have hr : c.avx512bw = true := hr
    obtain ⟨o1, o2, o3, o4, o5, o6, o7, o8, o9, o10, o11, o12, o13, o14, o15, o16, o17, o18, o19⟩ := h; grind

theorem inplace4_fs (hs : r = .r128 → (c.ssse3 = true ∨ c.altivec = true ∨ c.msa = true)) (hr : c.hasInt 8 r = true) (hn : n = r.lanes 8) :
    FS 4 r.bytes (fun y : Fin 4 → Vec 8 n => do
      let a ← transpose_inplace c r (y 0)
      let b ← transpose_inplace c r (y 1)
      let d ← transpose_inplace c r (y 2)
      let e ← transpose_inplace c r (y 3)
      some (vec4 a b d e)) (fun q t => q * r.bytes + t / 16 * 16 + t % 4 * 4 + t % 16 / 4) := fun x => by
  obtain ⟨a, e1, s1⟩ := transpose_inplace_bs h hs hr hn (allB_bs r.bytes x 0)
  obtain ⟨b, e2, s2⟩ := transpose_inplace_bs h hs hr hn (allB_bs r.bytes x 1)
  obtain ⟨d, e3, s3⟩ := transpose_inplace_bs h hs hr hn (allB_bs r.bytes x 2)
  obtain ⟨e, e4, s4⟩ := transpose_inplace_bs h hs hr hn (allB_bs r.bytes x 3)
  refine ⟨vec4 a b d e, ?_, bs4 (F := fun q t => q * r.bytes + t / 16 * 16 + t % 4 * 4 + t % 16 / 4) (s1.congr ?_) (s2.congr ?_) (s3.congr ?_) (s4.congr ?_)⟩
  · simp only [e1, e2, e3, e4, Option.bind_eq_bind, Option.bind_some]
  all_goals clear * -; cases r <;> decide +kernel

end

end Simdpp
