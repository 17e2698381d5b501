import Verif.Props.MemPack24

/-!
# Interleaving and de-interleaving four vectors
-/

namespace Simdpp
open Sh Spec

variable {w v n N S M : Nat}

section
variable {c : Cfg} (h : c.Ok) {k : Kind} {r : Reg}
include h

theorem has_le {u v : Nat} (hu : IsW u) (hv : IsW v) (hr : c.hasInt u r = true) (huv : u ≤ v) : c.hasInt v r = true := by
  cases r
  · rfl
  · exact hr
  · unfold Cfg.hasInt at hr ⊢
    dsimp only at hr ⊢
    by_cases g : v ≤ 16
    · rw [if_pos g]; rw [if_pos (by omega)] at hr; exact hr
    · rw [if_neg g]
      by_cases g' : u ≤ 16
      · rw [if_pos g'] at hr
        obtain ⟨o1, o2, o3, o4, o5, o6, o7, o8, o9, o10, o11, o12, o13, o14, o15, o16, o17, o18, o19⟩ := h; grind
      · rw [if_neg g'] at hr; exact hr

theorem pack4_8_fs (hr : c.hasInt 8 r = true) (hn : n = r.lanes 8) :
    FS 4 r.bytes (pack4_8 (n := n) c r) (packSel16 4 1 r.bytes) := by
  have hr16 := has_le h isW8 iw16 hr (by decide)
  have hr32 := has_le h isW8 iw32 hr (by decide)
  have hr64 := has_le h isW8 iw64 hr (by decide)
  by_cases g : c.ssse3 = true ∨ c.altivec = true ∨ c.msa = true
  · have e := (transpose4As32_fs h hr32 hn).comp (inplace4_fs h (fun _ => g) hr hn) (by clear * -; cases r <;> decide +kernel)
    replace e := e.congr (s' := packSel16 4 1 r.bytes) (by clear * -; cases r <;> decide +kernel)
    · intro x
      obtain ⟨y, ey, hy⟩ := e x
      refine ⟨y, ?_, hy⟩
      unfold pack4_8
      rw [if_pos g]
      exact ey
  · intro x
    have i := fun q => allB_bs r.bytes x q
    obtain ⟨e0, E0, s0⟩ := bs_as2 iw64 rfl isW8 hn (i 0) (i 2) fun _ _ a b => zl_bs h (k := .int) iw64 hr64 rfl a b
    obtain ⟨e1, E1, s1⟩ := bs_as2 iw64 rfl isW8 hn (i 1) (i 3) fun _ _ a b => zl_bs h (k := .int) iw64 hr64 rfl a b
    obtain ⟨e2, E2, s2⟩ := bs_as2 iw64 rfl isW8 hn (i 0) (i 2) fun _ _ a b => zh_bs h (k := .int) iw64 hr64 rfl a b
    obtain ⟨e3, E3, s3⟩ := bs_as2 iw64 rfl isW8 hn (i 1) (i 3) fun _ _ a b => zh_bs h (k := .int) iw64 hr64 rfl a b
    obtain ⟨f0, F0, t0⟩ := zl_bs h (k := .int) isW8 hr hn s0 s1
    obtain ⟨f1, F1, t1⟩ := zh_bs h (k := .int) isW8 hr hn s0 s1
    obtain ⟨f2, F2, t2⟩ := zl_bs h (k := .int) isW8 hr hn s2 s3
    obtain ⟨f3, F3, t3⟩ := zh_bs h (k := .int) isW8 hr hn s2 s3
    obtain ⟨a, G0, u0⟩ := bs_as2 iw16 rfl isW8 hn t0 t1 fun _ _ a b => zl_bs h (k := .int) iw16 hr16 rfl a b
    obtain ⟨b, G1, u1⟩ := bs_as2 iw16 rfl isW8 hn t0 t1 fun _ _ a b => zh_bs h (k := .int) iw16 hr16 rfl a b
    obtain ⟨d, G2, u2⟩ := bs_as2 iw16 rfl isW8 hn t2 t3 fun _ _ a b => zl_bs h (k := .int) iw16 hr16 rfl a b
    obtain ⟨e, G3, u3⟩ := bs_as2 iw16 rfl isW8 hn t2 t3 fun _ _ a b => zh_bs h (k := .int) iw16 hr16 rfl a b
    refine ⟨vec4 a b d e, ?_, bs4 (u0.congr ?_) (u1.congr ?_) (u2.congr ?_) (u3.congr ?_)⟩
    · unfold pack4_8
      rw [if_neg g]
      simp only [E0, E1, E2, E3, F0, F1, F2, F3, G0, G1, G2, G3, Option.bind_eq_bind, Option.bind_some]
    all_goals clear * -; cases r <;> decide +kernel

theorem pack4_16_fs (hr : c.hasInt 16 r = true) (hn : n = r.lanes 16) :
    FS 4 r.bytes (pack4_16 (n := n) c r) (packSel16 4 2 r.bytes) := by
  have hr32 := has_le h iw16 iw32 hr (by decide)
  have hr64 := has_le h iw16 iw64 hr (by decide)
  intro x
  have i := fun q => allB_bs r.bytes x q
  obtain ⟨e0, E0, s0⟩ := bs_as2 iw64 rfl iw16 hn (i 0) (i 2) fun _ _ a b => zl_bs h (k := .int) iw64 hr64 rfl a b
  obtain ⟨e1, E1, s1⟩ := bs_as2 iw64 rfl iw16 hn (i 1) (i 3) fun _ _ a b => zl_bs h (k := .int) iw64 hr64 rfl a b
  obtain ⟨e2, E2, s2⟩ := bs_as2 iw64 rfl iw16 hn (i 0) (i 2) fun _ _ a b => zh_bs h (k := .int) iw64 hr64 rfl a b
  obtain ⟨e3, E3, s3⟩ := bs_as2 iw64 rfl iw16 hn (i 1) (i 3) fun _ _ a b => zh_bs h (k := .int) iw64 hr64 rfl a b
  obtain ⟨f0, F0, t0⟩ := zl_bs h (k := .int) iw16 hr hn s0 s1
  obtain ⟨f1, F1, t1⟩ := zh_bs h (k := .int) iw16 hr hn s0 s1
  obtain ⟨f2, F2, t2⟩ := zl_bs h (k := .int) iw16 hr hn s2 s3
  obtain ⟨f3, F3, t3⟩ := zh_bs h (k := .int) iw16 hr hn s2 s3
  obtain ⟨a, G0, u0⟩ := bs_as2 iw32 rfl iw16 hn t0 t1 fun _ _ a b => zl_bs h (k := .int) iw32 hr32 rfl a b
  obtain ⟨b, G1, u1⟩ := bs_as2 iw32 rfl iw16 hn t0 t1 fun _ _ a b => zh_bs h (k := .int) iw32 hr32 rfl a b
  obtain ⟨d, G2, u2⟩ := bs_as2 iw32 rfl iw16 hn t2 t3 fun _ _ a b => zl_bs h (k := .int) iw32 hr32 rfl a b
  obtain ⟨e, G3, u3⟩ := bs_as2 iw32 rfl iw16 hn t2 t3 fun _ _ a b => zh_bs h (k := .int) iw32 hr32 rfl a b
  refine ⟨vec4 a b d e, ?_, bs4 (u0.congr ?_) (u1.congr ?_) (u2.congr ?_) (u3.congr ?_)⟩
  · unfold pack4_16
    simp only [E0, E1, E2, E3, F0, F1, F2, F3, G0, G1, G2, G3, Option.bind_eq_bind, Option.bind_some]
  all_goals clear * -; cases r <;> decide +kernel

omit h in
theorem tr2_gather (hn : n % 2 = 0) (x y : Vec 64 n) (q : Fin 2) :
    tr (vec2 x y) q = gather 2 (fun j => if j = 0 then q.val else 2 + q.val) x y := by
  funext i
  have e := tr_at (by decide : 0 < 2) (vec2 x y) q i.isLt
  rw [Vec.at_lt _ i.isLt] at e
  refine e.trans ?_
  unfold gather
  dsimp only
  have hq := q.isLt
  have hi : i.val % 2 = 0 ∨ i.val % 2 = 1 := by omega
  rcases hi with hi | hi
  · simp only [hi, if_true]
    rw [if_pos hq]; rfl
  · simp only [hi, one_ne_zero, if_false]
    rw [if_neg (by omega), if_pos (by omega), Nat.add_sub_cancel_left]; rfl

theorem tr2_bs {A : Vec 8 S} {f g : Nat → Nat} (hr : c.hasVec k 64 r = true) (hn : n = r.lanes 64) {x y : Vec 64 n} (hx : BS A r.bytes x f) (hy : BS A r.bytes y g) :
    ∃ z, i_transpose2_64 c k r (vec2 x y) = some z ∧ BS A r.bytes (z 0) (gsel 16 S (ex 8 (sel2 0 2)) f g) ∧
      BS A r.bytes (z 1) (gsel 16 S (ex 8 (sel2 1 3)) f g) := by
  have h2 : n % 2 = 0 := by subst hn; cases r <;> rfl
  refine ⟨_, i_transpose2_64_eq h hr hn _, ?_, ?_⟩
  · rw [tr2_gather h2]; exact bs_g iw64 hn hx hy _
  · rw [tr2_gather h2]; exact bs_g iw64 hn hx hy _

theorem pack4_64_fs (hr : c.hasVec k 64 r = true) (hn : n = r.lanes 64) :
    FS 4 r.bytes (pack4_64 (n := n) c k r) (packSel16 4 8 r.bytes) := by
  intro x
  have i := fun q => allB_bs r.bytes x q
  obtain ⟨y, e1, s1, s2⟩ := tr2_bs h hr hn (i 0) (i 1)
  obtain ⟨z, e2, s3, s4⟩ := tr2_bs h hr hn (i 2) (i 3)
  refine ⟨vec4 (y 0) (z 0) (y 1) (z 1), ?_, bs4 (s1.congr ?_) (s3.congr ?_) (s2.congr ?_) (s4.congr ?_)⟩
  · unfold pack4_64
    simp only [e1, e2, Option.bind_eq_bind, Option.bind_some]
  all_goals clear * -; cases r <;> decide +kernel

theorem unpack4_64_fs (hr : c.hasVec k 64 r = true) (hn : n = r.lanes 64) :
    FS 4 r.bytes (unpack4_64 (n := n) c k r) (unpackSel16 4 8 r.bytes) := by
  intro x
  have i := fun q => allB_bs r.bytes x q
  obtain ⟨y, e1, s1, s2⟩ := tr2_bs h hr hn (i 0) (i 2)
  obtain ⟨z, e2, s3, s4⟩ := tr2_bs h hr hn (i 1) (i 3)
  refine ⟨vec4 (y 0) (y 1) (z 0) (z 1), ?_, bs4 (s1.congr ?_) (s2.congr ?_) (s3.congr ?_) (s4.congr ?_)⟩
  · unfold unpack4_64
    simp only [e1, e2, Option.bind_eq_bind, Option.bind_some]
  all_goals clear * -; cases r <;> decide +kernel

theorem unpack4_8_fs (hr : c.hasInt 8 r = true) (hn : n = r.lanes 8) :
    FS 4 r.bytes (unpack4_8 (n := n) c r) (unpackSel16 4 1 r.bytes) := by
  have hr32 := has_le h isW8 iw32 hr (by decide)
  have hr64 := has_le h isW8 iw64 hr (by decide)
  by_cases g : c.ssse3 = true ∨ c.altivec = true ∨ c.msa = true
  · have e := (inplace4_fs h (fun _ => g) hr hn).comp (transpose4As32_fs h hr32 hn) (by clear * -; cases r <;> decide +kernel)
    replace e := e.congr (s' := unpackSel16 4 1 r.bytes) (by clear * -; cases r <;> decide +kernel)
    · intro x
      obtain ⟨y, ey, hy⟩ := e x
      refine ⟨y, ?_, hy⟩
      rw [← ey]
      unfold unpack4_8
      rw [if_pos g]
      simp only [Option.bind_eq_bind, Option.bind_assoc, Option.bind_some]
  · intro x
    have i := fun q => allB_bs r.bytes x q
    obtain ⟨e0, E0, s0⟩ := zl_bs h (k := .int) isW8 hr hn (i 0) (i 1)
    obtain ⟨e1, E1, s1⟩ := zh_bs h (k := .int) isW8 hr hn (i 0) (i 1)
    obtain ⟨e2, E2, s2⟩ := zl_bs h (k := .int) isW8 hr hn (i 2) (i 3)
    obtain ⟨e3, E3, s3⟩ := zh_bs h (k := .int) isW8 hr hn (i 2) (i 3)
    obtain ⟨f0, F0, t0⟩ := zl_bs h (k := .int) isW8 hr hn s0 s1
    obtain ⟨f1, F1, t1⟩ := zh_bs h (k := .int) isW8 hr hn s0 s1
    obtain ⟨f2, F2, t2⟩ := zl_bs h (k := .int) isW8 hr hn s2 s3
    obtain ⟨f3, F3, t3⟩ := zh_bs h (k := .int) isW8 hr hn s2 s3
    obtain ⟨g0, G0, v0⟩ := zl_bs h (k := .int) isW8 hr hn t0 t1
    obtain ⟨g1, G1, v1⟩ := zh_bs h (k := .int) isW8 hr hn t0 t1
    obtain ⟨g2, G2, v2⟩ := zl_bs h (k := .int) isW8 hr hn t2 t3
    obtain ⟨g3, G3, v3⟩ := zh_bs h (k := .int) isW8 hr hn t2 t3
    obtain ⟨a, H0, u0⟩ := bs_as2 iw64 rfl isW8 hn v0 v2 fun _ _ a b => zl_bs h (k := .int) iw64 hr64 rfl a b
    obtain ⟨b, H1, u1⟩ := bs_as2 iw64 rfl isW8 hn v0 v2 fun _ _ a b => zh_bs h (k := .int) iw64 hr64 rfl a b
    obtain ⟨d, H2, u2⟩ := bs_as2 iw64 rfl isW8 hn v1 v3 fun _ _ a b => zl_bs h (k := .int) iw64 hr64 rfl a b
    obtain ⟨e, H3, u3⟩ := bs_as2 iw64 rfl isW8 hn v1 v3 fun _ _ a b => zh_bs h (k := .int) iw64 hr64 rfl a b
    refine ⟨vec4 a b d e, ?_, bs4 (u0.congr ?_) (u1.congr ?_) (u2.congr ?_) (u3.congr ?_)⟩
    · unfold unpack4_8
      rw [if_neg g]
      simp (config := { maxSteps := 2000000 }) only [E0, E1, E2, E3, F0, F1, F2, F3, G0, G1, G2, G3, H0, H1, H2, H3, Option.bind_eq_bind, Option.bind_some]
    all_goals clear * -; cases r <;> decide +kernel

theorem unpack4_16_fs (hr : c.hasInt 16 r = true) (hn : n = r.lanes 16) :
    FS 4 r.bytes (unpack4_16 (n := n) c r) (unpackSel16 4 2 r.bytes) := by
  have hr64 := has_le h iw16 iw64 hr (by decide)
  intro x
  have i := fun q => allB_bs r.bytes x q
  obtain ⟨e0, E0, s0⟩ := zl_bs h (k := .int) iw16 hr hn (i 0) (i 1)
  obtain ⟨e1, E1, s1⟩ := zh_bs h (k := .int) iw16 hr hn (i 0) (i 1)
  obtain ⟨e2, E2, s2⟩ := zl_bs h (k := .int) iw16 hr hn (i 2) (i 3)
  obtain ⟨e3, E3, s3⟩ := zh_bs h (k := .int) iw16 hr hn (i 2) (i 3)
  obtain ⟨f0, F0, t0⟩ := zl_bs h (k := .int) iw16 hr hn s0 s1
  obtain ⟨f1, F1, t1⟩ := zh_bs h (k := .int) iw16 hr hn s0 s1
  obtain ⟨f2, F2, t2⟩ := zl_bs h (k := .int) iw16 hr hn s2 s3
  obtain ⟨f3, F3, t3⟩ := zh_bs h (k := .int) iw16 hr hn s2 s3
  obtain ⟨a, G0, u0⟩ := bs_as2 iw64 rfl iw16 hn t0 t2 fun _ _ a b => zl_bs h (k := .int) iw64 hr64 rfl a b
  obtain ⟨b, G1, u1⟩ := bs_as2 iw64 rfl iw16 hn t0 t2 fun _ _ a b => zh_bs h (k := .int) iw64 hr64 rfl a b
  obtain ⟨d, G2, u2⟩ := bs_as2 iw64 rfl iw16 hn t1 t3 fun _ _ a b => zl_bs h (k := .int) iw64 hr64 rfl a b
  obtain ⟨e, G3, u3⟩ := bs_as2 iw64 rfl iw16 hn t1 t3 fun _ _ a b => zh_bs h (k := .int) iw64 hr64 rfl a b
  refine ⟨vec4 a b d e, ?_, bs4 (u0.congr ?_) (u1.congr ?_) (u2.congr ?_) (u3.congr ?_)⟩
  · unfold unpack4_16
    simp only [E0, E1, E2, E3, F0, F1, F2, F3, G0, G1, G2, G3, Option.bind_eq_bind, Option.bind_some]
  all_goals clear * -; cases r <;> decide +kernel

theorem unpack4_32_fs (hr : c.hasVec k 32 r = true) (hn : n = r.lanes 32) :
    FS 4 r.bytes (i_transpose4_32 (n := n) c k r) (unpackSel16 4 4 r.bytes) :=
  (transpose4_fs h hr hn).congr (by clear * -; cases r <;> decide +kernel)

theorem mem_pack4_fs (hw : k.okW w) (hr : c.hasVec k w r = true) (hn : n = r.lanes w) :
    FS 4 r.bytes (mem_pack4 (w := w) (n := n) c k r) (packSel 4 (w / 8) r.bytes) := by
  have hl := pack4Lanes_fs h hw hr hn
  have fin : ∀ {op : (Fin 4 → Vec w n) → Option (Fin 4 → Vec w n)}, FS 4 r.bytes op (packSel16 4 (w / 8) r.bytes) →
      FS 4 r.bytes (fun x => (op x).bind (pack4Lanes c k r)) (packSel 4 (w / 8) r.bytes) := fun ho => by
    refine (ho.comp hl (by clear * -; cases r <;> decide +kernel)).congr ?_
    clear * - hw
    rcases hw.isW with e | e | e | e <;> subst e <;> cases r <;> decide +kernel
  have lift : ∀ {op : (Fin 4 → Vec w n) → Option (Fin 4 → Vec w n)},
      (∀ x, mem_pack4 c k r x = (op x).bind (pack4Lanes c k r)) → FS 4 r.bytes op (packSel16 4 (w / 8) r.bytes) →
      FS 4 r.bytes (mem_pack4 (w := w) (n := n) c k r) (packSel 4 (w / 8) r.bytes) := fun e ho => by
    rw [show mem_pack4 (w := w) (n := n) c k r = _ from funext e]
    exact fin ho
  rcases okW_cases hw with e | e | ⟨e2, e | e⟩
  · subst e; exact lift (op := pack4_64 c k r) (fun x => rfl) (pack4_64_fs h hr hn)
  · subst e; exact lift (op := i_transpose4_32 c k r) (fun x => rfl) (transpose4_fs h hr hn)
  · subst e e2; exact lift (op := pack4_8 c r) (fun x => rfl) (pack4_8_fs h hr hn)
  · subst e e2; exact lift (op := pack4_16 c r) (fun x => rfl) (pack4_16_fs h hr hn)

theorem mem_unpack4_fs (hw : k.okW w) (hr : c.hasVec k w r = true) (hn : n = r.lanes w) :
    FS 4 r.bytes (mem_unpack4 (w := w) (n := n) c k r) (unpackSel 4 (w / 8) r.bytes) := by
  have hl := unpack4Lanes_fs h hw hr hn
  have fin : ∀ {op : (Fin 4 → Vec w n) → Option (Fin 4 → Vec w n)}, FS 4 r.bytes op (unpackSel16 4 (w / 8) r.bytes) →
      FS 4 r.bytes (fun x => (unpack4Lanes c k r x).bind op) (unpackSel 4 (w / 8) r.bytes) := fun ho => by
    refine (hl.comp ho (by clear * - hw; rcases hw.isW with e | e | e | e <;> subst e <;> cases r <;> decide +kernel)).congr ?_
    clear * - hw
    rcases hw.isW with e | e | e | e <;> subst e <;> cases r <;> decide +kernel
  have lift : ∀ {op : (Fin 4 → Vec w n) → Option (Fin 4 → Vec w n)},
      (∀ x, mem_unpack4 c k r x = (unpack4Lanes c k r x).bind op) → FS 4 r.bytes op (unpackSel16 4 (w / 8) r.bytes) →
      FS 4 r.bytes (mem_unpack4 (w := w) (n := n) c k r) (unpackSel 4 (w / 8) r.bytes) := fun e ho => by
    rw [show mem_unpack4 (w := w) (n := n) c k r = _ from funext e]
    exact fin ho
  rcases okW_cases hw with e | e | ⟨e2, e | e⟩
  · subst e; exact lift (op := unpack4_64 c k r) (fun x => rfl) (unpack4_64_fs h hr hn)
  · subst e; exact lift (op := i_transpose4_32 c k r) (fun x => rfl) (unpack4_32_fs h hr hn)
  · subst e e2; exact lift (op := unpack4_8 c r) (fun x => rfl) (unpack4_8_fs h hr hn)
  · subst e e2; exact lift (op := unpack4_16 c r) (fun x => rfl) (unpack4_16_fs h hr hn)

end

end Simdpp
