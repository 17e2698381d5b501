import Verif.Props.FConvU32
import Verif.Props.Conv
import Verif.Props.PopcntPub
import Verif.Props.Cast
import Verif.Props.Compare
import Verif.Props.BlendLemmas

/-!
# C46, C49: the register kernels of the floating-point conversions
-/

namespace Simdpp
open Spec Spec.Flt Spec.Fp Sh

variable {w v n N : Nat}

attribute [local irreducible] Hw.i2f Fp.conv Hw.convZ Fp.ofInt Fp.add Hw.cvtt Hw.fcvtz

theorem fcvtParts_eq {m : Nat} (hm : 0 < m) (g : BitVec w → BitVec v) (a : Vec w n) :
    fcvtParts g m a = some (fun i => g (a i)) := by
  unfold fcvtParts
  refine catM_of hm fun p _ => ⟨_, rfl, fun j hj hl => ?_⟩
  rw [map_at _ _ hj, map_at _ _ hl, Hw.part_at _ hj]

section
variable {c : Cfg} (h : c.Ok)
include h

/-- Kernel by kernel over parts. -/
theorem catM_kern {m : Nat} (hm : 0 < m) {f : Vec w m → Option (Vec v m)} {G : BitVec w → BitVec v}
    (hf : ∀ x, f x = some (fun i => G (x i))) (a : Vec w n) : catM m (fun p => f (Hw.part m p a)) = some (fun i => G (a i)) := by
  refine catM_of hm fun p _ => ⟨_, hf _, fun j hj hl => ?_⟩
  rw [map_at _ _ hj, map_at _ _ hl, Hw.part_at _ hj]

theorem fcvtMoves_ex {k : Kind} (hw : k.okW 32) (g : BitVec 32 → BitVec v) (a : Vec 32 n) (hn : n = 4) {p : Nat} (hp : p < 2) :
    ∃ x, fcvtMoves c k g 2 [0, 2] a p = some x ∧ ∀ j, j < 2 → x.at_ j = g (a.at_ (p * 2 + j)) := by
  unfold fcvtMoves
  dsimp only
  have hp' : p = 0 ∨ p = 1 := by omega
  rcases hp' with rfl | rfl
  · refine ⟨_, rfl, fun j hj => ?_⟩
    rw [Vec.at_lt _ hj, Nat.zero_mul, Nat.zero_add]
  · rw [if_neg (by decide)]
    obtain ⟨b, e, q⟩ := moveL1_eq h (s := 2) hw (by decide) (by rw [hn]) a
    refine ⟨_, (congrArg (Option.map _) e).trans rfl, fun j hj => ?_⟩
    rw [Vec.at_lt _ hj]
    dsimp only
    rw [q j (by omega)]
    congr 2; omega

theorem catM_fmoves {k : Kind} (hw : k.okW 32) (g : BitVec 32 → BitVec v) (a : Vec 32 n) (hn : n = 4) :
    catM 2 (fcvtMoves c k g 2 [0, 2] a) = some (fun i => g (a i)) := by
  refine catM_of (by decide) fun p hp => ?_
  obtain ⟨x, e, q⟩ := fcvtMoves_ex h hw g a hn (p := p) (by omega)
  exact ⟨x, e, fun j hj hl => by rw [q j hj, map_at _ _ hl]⟩

/-! ## `uint32` to `float` on x86 -/

theorem u32f32_eq (hx : c.sse2 = true) {r : Reg} (hr : c.hasInt 32 r = true) (a : Vec 32 n) :
    u32f32 c r a = some (fun i => u32lane (a i)) := by
  have hf : c.hasVec .flt 32 r = true := by
    cases r
    · rfl
    · exact h.avx2 hr
    · exact hr
  unfold u32f32
  refine bind_of (i_cmp_lt_eq h iw32 hr true (by simp) (by simp) (by simp) a (Vec.splat 0)) _ |>.trans ?_
  refine bind_of (C45_mask_cast_total_partial h .int .flt iw32 (Or.inl rfl) r hr hf (by
    rintro ⟨g, -⟩; cfg_absurd h) _) _ |>.trans ?_
  refine bind_of (i_bit_and_vm_eq h (k := .flt) (Or.inl rfl) hf _ _) _ |>.trans ?_
  rw [i_fadd_eq h hf]
  congr 1
  funext i
  unfold u32lane
  have e0 : val true (Vec.splat (0 : BitVec 32) i : BitVec 32) = 0 := by rfl
  rw [e0]
  by_cases hn : val true (a i) < 0
  · rw [decide_eq_true hn, if_pos rfl, if_pos hn]; rfl
  · rw [decide_eq_false hn, if_neg (by decide), if_neg hn]; rfl

/-- The unsigned conversion goes through the signed one. -/
def Cfg.emuU (c : Cfg) (r : Reg) : Bool := c.sse2 && (decide (r = .r128) || (decide (r = .r256) && !c.avx512f))

/-- What one lane becomes. -/
def i32f32lane (c : Cfg) (sg : Bool) (r : Reg) (x : BitVec 32) : BitVec 32 :=
  if sg = false ∧ c.emuU r = true then u32lane x else Hw.i2f sg 32 x

theorem i32f32_eq (sg : Bool) {r : Reg} (hr : c.hasVec .flt 32 r = true) (a : Vec 32 n) :
    i32f32 c sg r a = some (fun i => i32f32lane c sg r (a i)) := by
  unfold i32f32 i32f32lane Cfg.emuU
  cases r
  · dsimp only
    by_cases g : c.sse2 = true
    · rw [if_neg (by intro hh; cfg_absurd h), if_pos g]
      cases sg
      · rw [if_neg (by decide), u32f32_eq h g rfl]; simp [g]
      · rw [if_pos rfl]; simp; rfl
    · have e : (fun i => if sg = false ∧ (c.sse2 && (decide (Reg.r128 = .r128) || (decide (Reg.r128 = .r256) && !c.avx512f))) = true
          then u32lane (a i) else Hw.i2f sg 32 (a i) : Vec 32 n) = fun i => Hw.i2f sg 32 (a i) := by
        funext i; rw [if_neg (by simp [g])]
      rw [e]
      split_ifs <;> first | rfl | cfg_absurd h
  · dsimp only
    have hx : c.sse2 = true := h.sse3 (h.ssse3 (h.sse41 (h.avx hr)))
    rw [if_pos (show c.avx = true from hr)]
    cases sg
    · rw [if_neg (by decide)]
      by_cases h2 : c.avx512f = true
      · rw [if_pos h2]; simp [h2]; rfl
      · rw [if_neg h2]
        by_cases h3 : c.avx2 = true
        · rw [if_pos h3, u32f32_eq h hx (show c.hasInt 32 .r256 = true from h3)]; simp [hx, h2]
        · rw [if_neg h3, catM_kern h (by decide) (fun x => u32f32_eq h hx (r := .r128) rfl x)]; simp [hx, h2]
    · rw [if_pos rfl]; simp; rfl
  · dsimp only
    rw [if_pos (show c.avx512f = true from hr)]
    simp; rfl

/-! ## 32-bit integers to `double` -/

theorem f_cmp_lt_eq (hw : w = 32 ∨ w = 64) {r : Reg} (hr : c.hasVec .flt w r = true) (a b : Vec w n) :
    f_cmp_lt c r a b = some (Mask.of c .flt r (fun i => Flt.flt (a i) (b i))) := by
  refine f_cmp_eq' h hw hr ?_ ?_ ?_ <;> rfl

theorem f_cmp_ge_eq (hw : w = 32 ∨ w = 64) {r : Reg} (hr : c.hasVec .flt w r = true) (a b : Vec w n) :
    f_cmp_ge c r a b = some (Mask.of c .flt r (fun i => Flt.fge (a i) (b i))) := by
  refine f_cmp_eq' h hw hr ?_ ?_ ?_ <;> rfl

theorem fixU_eq {r : Reg} (hr : c.hasVec .flt 64 r = true) (x : Vec 32 n) :
    fixU c r (x.map (Hw.i2f true 64)) = some (fun i => Hw.i2f false 64 (x i)) := by
  unfold fixU
  refine bind_of (f_cmp_lt_eq h (.inr rfl) hr (x.map (Hw.i2f true 64)) (Vec.splat 0)) _ |>.trans ?_
  refine bind_of (i_fadd_eq h hr _ _) _ |>.trans ?_
  rw [i_blend_vm_eq h (k := .flt) (Or.inr rfl) hr]
  congr 1
  funext i
  have := fixU_lane (x i)
  exact this

omit h in
theorem half_at' (a : Vec 32 n) (hn : n = 4) {p j : Nat} (hp : p < 2) (hj : j < 2) :
    (Hw.half (decide (p = 1)) a).at_ j = a.at_ (p * 2 + j) := by
  unfold Hw.half
  rw [Hw.part_at _ (by omega)]
  congr 1
  have : p = 0 ∨ p = 1 := by omega
  rcases this with rfl | rfl
  · simp
  · simp; omega

omit h in
theorem i2f_ext (sg : Bool) (x : BitVec 32) : (Hw.i2f sg 64 (Hw.extLane sg 64 x) : BitVec 64) = Hw.i2f sg 64 x := by
  unfold Hw.i2f; rw [val_ext (by decide) (by decide)]

omit h in
theorem join_ext (sg : Bool) (x : BitVec 32) : (if sg then bshr true x 31 else 0) ++ x = (Hw.extLane sg 64 x : BitVec 64) := by
  apply BitVec.eq_of_getLsbD_eq
  intro i hi
  rw [BitVec.getLsbD_append]
  cases sg
  · unfold Hw.extLane; simp only [Bool.false_eq_true, if_false]
    by_cases hl : i < 32
    · simp [hl]; intro; omega
    · simp [hl]; intro; exact BitVec.getLsbD_of_ge _ _ (by omega)
  · unfold Hw.extLane bshr; simp only [if_true]
    rw [BitVec.getLsbD_signExtend, BitVec.getLsbD_sshiftRight]
    by_cases hl : i < 32
    · simp [hl, hi]
    · rw [if_neg hl, if_neg hl]
      have h3 : ¬ 32 ≤ i - 32 := by omega
      by_cases h2 : i = 32
      · subst h2; simp [BitVec.msb_eq_getLsbD_last]
      · have h4 : ¬ 31 + (i - 32) < 32 := by omega
        simp [hi, h3]
        omega

omit h in
theorem merge_ext (sg : Bool) (hn : n = 4) (a s : Vec 32 n) (hs : ∀ i, s i = (if sg then bshr true (a i) 31 else 0)) :
    (catM 2 (fun p => (if p = 0 then some (Hw.mergeh a s) else some (Hw.mergel a s)).map
        fun t => (t.recast 64 2).map (Hw.i2f sg 64)) : Option (Vec 64 n)) = some (fun i => Hw.i2f sg 64 (a i)) := by
  subst hn
  have hrec : ∀ (t : Vec 32 4) (j : Fin 2), (t.recast 64 2 : Vec 64 2) j = (t.at_ (2 * j.val + 1) ++ t.at_ (2 * j.val) : BitVec 64) :=
    fun t j => Vec.recast_up_eq (w := 32) (m := 2) rfl t j
  have hj : ∀ i, i < 4 → s.at_ i ++ a.at_ i = (Hw.extLane sg 64 (a.at_ i) : BitVec 64) := by
    intro i hi
    rw [Vec.at_lt _ hi, Vec.at_lt _ hi, hs, join_ext]
  refine catM_of (by decide) fun p hp => ?_
  have hp' : p = 0 ∨ p = 1 := by omega
  have key : ∀ t : Vec 32 4, (∀ j, j < 2 → t.at_ (2 * j) = a.at_ (p * 2 + j) ∧ t.at_ (2 * j + 1) = s.at_ (p * 2 + j)) →
      ∀ j, j < 2 → p * 2 + j < 4 → ((t.recast 64 2).map (Hw.i2f sg 64) : Vec 64 2).at_ j =
        Vec.at_ (fun i => Hw.i2f sg 64 (a i) : Vec 64 4) (p * 2 + j) := by
    intro t ht j hj2 hlt
    rw [Vec.at_lt _ hj2, map_at _ _ hlt]
    unfold Vec.map
    beta_reduce
    rw [hrec, (ht j hj2).1, (ht j hj2).2, hj _ hlt, i2f_ext]
  rcases hp' with rfl | rfl
  · refine ⟨_, rfl, key _ fun j hj2 => ?_⟩
    have : j = 0 ∨ j = 1 := by omega
    rcases this with rfl | rfl <;> exact ⟨rfl, rfl⟩
  · refine ⟨_, rfl, key _ fun j hj2 => ?_⟩
    have : j = 0 ∨ j = 1 := by omega
    rcases this with rfl | rfl <;> exact ⟨rfl, rfl⟩

theorem i32f64_eq (sg : Bool) {r : Reg} (hr : c.hasInt 32 r = true) (hn : n = r.lanes 32) (a : Vec 32 n) :
    i32f64 c sg r a = some (fun i => Hw.i2f sg 64 (a i)) := by
  have hl : r = .r128 → c.VLen 32 n := fun e => by subst e; exact hn ▸ lanes_vlen iw32 .r128 rfl
  have hpart : ∀ sg, r = .r128 → (i_ext32_64 c sg a).bind (fcvtParts (Hw.i2f sg 64) 2) = some (fun i => Hw.i2f sg 64 (a i)) := by
    intro sg e
    rw [i_ext32_64_eq h sg (hl e), Option.bind_some, fcvtParts_eq (by decide)]
    congr 1; funext i; exact i2f_ext sg (a i)
  have hneon : ∀ sg, r = .r128 →
      (catM 2 (fun p => some ((Hw.cvt sg 64 (Hw.half (decide (p = 1)) a) : Vec 64 2).map (Hw.i2f sg 64))) : Option (Vec 64 n)) =
        some (fun i => Hw.i2f sg 64 (a i)) := by
    intro sg e
    subst e
    refine catM_of (by decide) fun p hp => ⟨_, rfl, fun j hj hlt => ?_⟩
    have hp2 : p < 2 := by simp [Reg.lanes, Reg.bits] at hn; omega
    rw [map_at _ _ hlt, Vec.at_lt _ hj]
    unfold Vec.map Hw.cvt
    rw [half_at' a hn hp2 hj, i2f_ext]
  have hvsx : ∀ (s : Vec 32 n), r = .r128 → (∀ i, s i = (if sg then bshr true (a i) 31 else 0)) →
      (catM 2 (fun p => (if p = 0 then some (Hw.mergeh a s) else some (Hw.mergel a s)).map
          fun t => (t.recast 64 2).map (Hw.i2f sg 64)) : Option (Vec 64 n)) = some (fun i => Hw.i2f sg 64 (a i)) :=
    fun s e hs => merge_ext sg (by rw [hn, e]; rfl) a s hs
  unfold i32f64
  cases r
  · dsimp only
    cases sg
    · rw [if_neg (by decide)]
      split_ifs with h1 h2 h3 h4 h5 h6 h7 h8
      · rfl
      · exact fixU_eq h (r := .r256) h3 a
      · refine catM_of (by decide) fun p hp => ?_
        have hp2 : p < 2 := by simp [Reg.lanes, Reg.bits] at hn; omega
        have hxa : ∃ x : Vec 32 2, fcvtMoves c .int (Hw.i2f true 64) 2 [0, 2] a p = some (x.map (Hw.i2f true 64)) ∧
            ∀ j, j < 2 → x.at_ j = a.at_ (p * 2 + j) := by
          obtain ⟨x, e, q⟩ := fcvtMoves_ex h (k := .int) iw32 (Hw.i2f true 64) a hn hp2
          refine ⟨fun j => a.at_ (p * 2 + j.val), e.trans (congrArg some (ext_at fun j hj => ?_)), fun j hj => ?_⟩
          · rw [q j hj, Vec.at_lt _ hj]; rfl
          · rw [Vec.at_lt _ hj]
        obtain ⟨x, e, q⟩ := hxa
        refine ⟨_, (by rw [e, Option.bind_some]; exact fixU_eq h (r := .r128) rfl x), fun j hj hlt => ?_⟩
        rw [map_at _ _ hj, map_at _ _ hlt, q j hj]
      · exact hneon false rfl
      · exact hpart false rfl
      · exact hvsx (Vec.splat 0) rfl (fun _ => rfl)
      · exact hpart false rfl
      · rfl
      · cfg_absurd h
    · rw [if_pos rfl]
      split_ifs with h1 h2 h3 h4 h5 h6 h7
      · rfl
      · exact catM_fmoves h (k := .int) iw32 _ a hn
      · exact hneon true rfl
      · exact hpart true rfl
      · rw [shift_r_imm_eq h true iw32 (r := .r128) rfl (by rw [hn]; decide) a (by decide), Option.bind_eq_bind, Option.bind_some]
        exact hvsx _ rfl (fun _ => rfl)
      · exact hpart true rfl
      · rfl
      · cfg_absurd h
  · dsimp only
    have h2 : c.avx2 = true := hr
    rw [if_pos h2]
    split_ifs with h3 h4
    · rfl
    · simp only [h4]; exact fcvtParts_eq (by decide) _ a
    · have : sg = false := by simpa using h4
      rw [this]
      exact catM_kern h (by decide) (f := fun x => fixU c .r256 (x.map (Hw.i2f true 64))) (fun x => fixU_eq h (r := .r256) (h.avx2 h2) x) a
  · dsimp only
    rw [if_pos (show c.avx512f = true from hr)]
    exact fcvtParts_eq (by decide) _ a

theorem i64f64_eq (sg : Bool) {r : Reg} (hr : c.hasVec .flt 64 r = true)
    (hd : c.sse2 = true → c.avx512dq = true ∧ (r ≠ .r512 → c.avx512vl = true)) (a : Vec 64 n) :
    i64f64 c sg r a = some (fun i => Hw.i2f sg 64 (a i)) := by
  unfold i64f64
  cases r
  · dsimp only
    split_ifs <;> first | rfl | cfg_absurd h
  · dsimp only
    have hx : c.sse2 = true := h.sse3 (h.ssse3 (h.sse41 (h.avx hr)))
    rw [if_pos (show c.avx = true from hr), if_pos ⟨(hd hx).2 (by decide), (hd hx).1⟩]; rfl
  · dsimp only
    have hx : c.sse2 = true := h.sse3 (h.ssse3 (h.sse41 (h.avx (h.avx2 (h.avx512f hr)))))
    rw [if_pos ⟨hr, (hd hx).1⟩]; rfl

theorem f32f64_eq {r : Reg} (hr : c.hasVec .flt 32 r = true) (hn : n = r.lanes 32) (a : Vec 32 n) :
    f32f64 c r a = some (fun i => Fp.conv 64 (a i)) := by
  unfold f32f64
  have hhalf : r = .r128 → (catM 2 (fun p => some (fun i : Fin 2 => Fp.conv 64 ((Hw.half (decide (p = 1)) a).at_ i.val))) : Option (Vec 64 n)) =
      some (fun i => Fp.conv 64 (a i)) := by
    intro e
    subst e
    refine catM_of (by decide) fun p hp => ⟨_, rfl, fun j hj hlt => ?_⟩
    have hp2 : p < 2 := by simp [Reg.lanes, Reg.bits] at hn; omega
    rw [map_at _ _ hlt, Vec.at_lt _ hj]
    dsimp only
    rw [half_at' a hn hp2 hj]
  cases r
  · dsimp only
    split_ifs with h1 h2 h3 h4 h5 h6
    · rfl
    · exact catM_fmoves h (k := .flt) (Or.inl rfl) _ a hn
    · exact hhalf rfl
    · obtain rfl : n = 4 := hn
      have hz1 := i_zip_lo_eq h (k := .flt) (w := 32) (r := .r128) (n := 4) (Or.inl rfl) rfl rfl (Vec.splat 0) a
      have hz2 := i_zip_hi_eq h (k := .flt) (w := 32) (r := .r128) (n := 4) (Or.inl rfl) rfl rfl (Vec.splat 0) a
      refine catM_of (by decide) fun p hp => ?_
      have hp' : p = 0 ∨ p = 1 := by omega
      rcases hp' with rfl | rfl
      · refine ⟨_, (by rw [if_pos rfl, hz1]; rfl), fun j hj' hlt => ?_⟩
        have : j = 0 ∨ j = 1 := by omega
        rcases this with rfl | rfl <;> rfl
      · refine ⟨_, (by rw [if_neg (by decide), hz2]; rfl), fun j hj' hlt => ?_⟩
        have : j = 0 ∨ j = 1 := by omega
        rcases this with rfl | rfl <;> rfl
    · exact hhalf rfl
    · rfl
    · cfg_absurd h
  · dsimp only
    rw [if_pos (show c.avx = true from hr)]
    split_ifs
    · rfl
    · exact fcvtParts_eq (by decide) _ a
  · dsimp only
    rw [if_pos (show c.avx512f = true from hr)]
    exact fcvtParts_eq (by decide) _ a

/-- What one lane of `to_float32(double)` becomes. -/
def f64f32lane (c : Cfg) (r : Reg) (x : BitVec 64) : BitVec 32 :=
  if c.avx512f = true ∧ r ≠ .r128 then Hw.convZ 32 x else Fp.conv 32 x

theorem f64f32_eq {r : Reg} (hr : c.hasVec .flt 32 r = true) (hv : c.vsx206 = false) (hm : c.msa = false) (a : Vec 64 n) :
    f64f32 c r a = some (fun i => f64f32lane c r (a i)) := by
  unfold f64f32 f64f32lane
  cases r
  · have e : (fun i => if c.avx512f = true ∧ Reg.r128 ≠ .r128 then Hw.convZ 32 (a i) else Fp.conv 32 (a i) : Vec 32 n) =
        fun i => Fp.conv 32 (a i) := by funext i; rw [if_neg (by simp)]
    rw [e]
    dsimp only
    split_ifs <;> first | rfl | exact fcvtParts_eq (by decide) _ a | cfg_absurd h
  · dsimp only
    rw [if_pos (show c.avx = true from hr)]
    by_cases g : c.avx512f = true
    · rw [if_pos g]; congr 1; funext i; rw [if_pos ⟨g, by simp⟩]; rfl
    · rw [if_neg g, fcvtParts_eq (by decide)]; congr 1; funext i; rw [if_neg (by simp [g])]
  · dsimp only
    have g : c.avx512f = true := hr
    rw [if_pos g, fcvtParts_eq (by decide)]; congr 1; funext i; rw [if_pos ⟨g, by simp⟩]

end

end Simdpp
