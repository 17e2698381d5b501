import Verif.Props.FConv

/-!
# C49: floating point to integers
-/

namespace Simdpp
open Spec Spec.Flt Spec.Fp Sh

variable {w v n N : Nat}

attribute [local irreducible] Hw.i2f Fp.conv Hw.convZ Fp.ofInt Fp.add Hw.cvtt Hw.fcvtz Fp.num Fp.round Fp.truncInt Fp.sub

theorem part_all {m K : Nat} {P : BitVec w → Prop} {a : Vec w N} (hN : N = K * m) (h : ∀ i, P (a i)) {I : Nat} (hI : I < K) (j : Fin m) :
    P (Hw.part m I a j) := by
  have hlt : I * m + j.val < N := by
    have := Nat.mul_le_mul_right m (Nat.succ_le_of_lt hI)
    have := j.isLt
    rw [hN]; rw [Nat.succ_mul] at *; omega
  have e := Hw.part_at (q := I) a j.isLt
  rw [Vec.at_lt _ j.isLt, Vec.at_lt _ hlt] at e
  exact e ▸ h _

theorem lane_trunc (z : Int) : (Spec.lane 64 z).setWidth 32 = Spec.lane 32 z := by
  unfold Spec.lane
  apply BitVec.eq_of_toNat_eq
  rw [BitVec.toNat_setWidth, BitVec.toNat_ofInt, BitVec.toNat_ofInt]
  omega

theorem zip4 (x y : Vec 32 4) : gather (128 / 64 * 2) (ex 2 (zipI 64)) x y 0 = x.at_ 0 ∧ gather (128 / 64 * 2) (ex 2 (zipI 64)) x y 1 = x.at_ 1 ∧
    gather (128 / 64 * 2) (ex 2 (zipI 64)) x y 2 = y.at_ 0 ∧ gather (128 / 64 * 2) (ex 2 (zipI 64)) x y 3 = y.at_ 1 := ⟨rfl, rfl, rfl, rfl⟩

theorem unzip4 (x y : Vec 32 4) : gather (128 / 32) (fun j => 2 * j) x y 0 = x.at_ (2 * 0) ∧ gather (128 / 32) (fun j => 2 * j) x y 1 = x.at_ (2 * 1) ∧
    gather (128 / 32) (fun j => 2 * j) x y 2 = y.at_ (2 * 0) ∧ gather (128 / 32) (fun j => 2 * j) x y 3 = y.at_ (2 * 1) := ⟨rfl, rfl, rfl, rfl⟩

section
variable {c : Cfg} (h : c.Ok)
include h

theorem f32u32_fits {r : Reg} (hr : c.hasVec .flt 32 r = true) (a : Vec 32 n) (hf : ∀ i, Fits false 32 (a i)) :
    f32u32 c r a = some (fun i => Spec.lane 32 (Fp.truncInt (a i))) := by
  unfold f32u32
  refine bind_of (f_cmp_ge_eq h (.inl rfl) hr a (Vec.splat 0x4f000000#32)) _ |>.trans ?_
  refine bind_of (i_bit_and_vm_eq h (k := .flt) (Or.inl rfl) hr _ _) _ |>.trans ?_
  refine bind_of (i_fsub_eq h hr _ _) _ |>.trans ?_
  congr 1
  funext i
  exact f32u32lane_fits (hf i)

theorem f32i32_fits (sg : Bool) {r : Reg} (hr : c.hasVec .flt 32 r = true) (a : Vec 32 n) (hf : ∀ i, Fits sg 32 (a i)) :
    f32i32 c sg r a = some (fun i => Spec.lane 32 (Fp.truncInt (a i))) := by
  have e1 : ∀ s', s' = sg → some (a.map (Hw.cvtt s' 32)) = some (fun i => Spec.lane 32 (Fp.truncInt (a i))) := fun s' e => by
    subst e; congr 1; funext i; exact cvtt_fits (hf i)
  have e2 : ∀ s', s' = sg → some (a.map (Hw.fcvtz s' 32)) = some (fun i => Spec.lane 32 (Fp.truncInt (a i))) := fun s' e => by
    subst e; congr 1; funext i; exact fcvtz_fits (hf i)
  have e3 : ∀ s', s' = sg → lanesM (fun i => Null.f2i s' 32 (a i)) = some (fun i => Spec.lane 32 (Fp.truncInt (a i))) := fun s' e => by
    subst e; exact lanesM_eq_some.2 fun i => f2i_fits (hf i)
  unfold f32i32
  cases r <;> dsimp only
  · cases sg
    · split_ifs <;> first | (exfalso; simp at *; done) | exact e1 _ rfl | exact e2 _ rfl | exact e3 _ rfl | exact f32u32_fits h rfl a hf
    · split_ifs <;> first | exact e1 _ rfl | exact e2 _ rfl | exact e3 _ rfl | (exfalso; simp at *; done) | cfg_absurd h
  · rw [if_pos (show c.avx = true from hr)]
    cases sg
    · split_ifs <;> first | (exfalso; simp at *; done) | exact e1 _ rfl | exact f32u32_fits h hr a hf
    · exact e1 _ rfl
  · rw [if_pos (show c.avx512f = true from hr)]; exact e1 _ rfl

theorem i_f32i32_fits (sg : Bool) (hN : c.FLen 32 N) (a : Vec 32 N) (hf : ∀ i, Fits sg 32 (a i)) :
    i_f32i32 c sg a = some (fun i => Spec.lane 32 (Fp.truncInt (a i))) := by
  unfold i_f32i32
  split_ifs with h4 h8 h16
  · exact f32i32_fits h sg (r := .r128) rfl a hf
  · exact f32i32_fits h sg (r := .r256) h8.1 a hf
  · exact f32i32_fits h sg (r := .r512) h16.1 a hf
  all_goals
    obtain ⟨e, K, hK⟩ := FLen.multi hN h4 h8 h16
    dsimp only
    rw [e]
    have hNK : N / c.fastF.lanes 32 = K := by rw [hK, Nat.mul_div_cancel _ (lanes_pos iw32 _)]
    rw [hNK]
    refine convUp_eq' (G := fun x => Spec.lane 32 (Fp.truncInt x)) ?_ ?_ (lanes_pos iw32 _) hK a
      (fun I hI => f32i32_fits h sg (fastF_has c 32) _ (part_all hK hf hI))
    · first | decide | exact lanes_pos iw32 _
    · unfold Cfg.avxOnly1 at *
      rcases fastF_cases h with ⟨h1, h2, h3, e⟩ | ⟨h1, h2, h3, e⟩ | ⟨h1, h2, h3, e⟩ | ⟨h1, h2, h3, e⟩ <;> rw [e] <;> simp_all [Reg.lanes, Reg.bits]

/-! ## `double` to 32-bit integers -/

/-- Where `double` to 32-bit integers exists: unsigned only from AVX-512 on x86. -/
def Cfg.hasF64i32 (c : Cfg) (sg : Bool) : Prop := sg = false → c.sse2 = true → c.avx512f = true

theorem fits_wide {sg : Bool} {x : BitVec w} (hf : Fits sg 32 x) : Fits sg 64 x := by
  refine fits_mono hf ?_ ?_ <;> cases sg <;> decide

theorem f64i32_fits (sg : Bool) {r : Reg} (hr : c.hasVec .flt 64 r = true) (hd : c.hasF64i32 sg) (hn : n = r.lanes 32) (a : Vec 64 n)
    (hf : ∀ i, Fits sg 32 (a i)) : f64i32 c sg r a = some (fun i => Spec.lane 32 (Fp.truncInt (a i))) := by
  have e1 : ∀ s', s' = sg → some (a.map (Hw.cvtt s' 32)) = some (fun i => Spec.lane 32 (Fp.truncInt (a i))) := fun s' e => by
    subst e; congr 1; funext i; exact cvtt_fits (hf i)
  have e2 : ∀ s' m, s' = sg → 0 < m → fcvtParts (Hw.cvtt s' 32) m a = some (fun i => Spec.lane 32 (Fp.truncInt (a i))) := fun s' m e hm => by
    subst e; rw [fcvtParts_eq hm]; congr 1; funext i; exact cvtt_fits (hf i)
  unfold f64i32
  cases r <;> dsimp only
  · obtain rfl : n = 4 := hn
    have fp : ∀ p j, (hp : p < 2) → (hj : j < 2) → (Hw.part 2 p a : Vec 64 2) ⟨j, hj⟩ = a ⟨p * 2 + j, by omega⟩ := fun p j hp hj => by
      have := Hw.part_at (q := p) a hj
      rwa [Vec.at_lt _ hj, Vec.at_lt _ (show p * 2 + j < 4 by omega)] at this
    split_ifs with g1 g2 g3 g4 g5 g6
    · exact e1 _ g1.1.symm
    · obtain rfl : sg = true := g2.1
      have hz := fun x y : Vec 64 2 => i_zip_lo_eq h (k := .int) (w := 64) (r := .r128) (n := 2) (by simp [Kind.okW, IsW]) rfl rfl x y
      refine bind_of (hz _ _) _ |>.trans ?_
      rw [recast_gather (m := 4) (q := 2) (v := 32) (by decide) (by decide) (by decide) rfl rfl (by decide), Vec.recast_recast (v := 64) (m := 2) (w := 32) (n := 4) _ (by decide) rfl,
        Vec.recast_recast (v := 64) (m := 2) (w := 32) (n := 4) _ (by decide) rfl]
      congr 1
      funext i
      have hc : ∀ p j, (hp : p < 2) → (hj : j < 2) → Hw.cvtt true 32 ((Hw.part 2 p a : Vec 64 2).at_ j) = Spec.lane 32 (Fp.truncInt (a ⟨p * 2 + j, by omega⟩)) :=
        fun p j hp hj => by rw [Vec.at_lt _ hj, fp p j hp hj]; exact cvtt_fits (hf _)
      match i with
      | ⟨0, _⟩ => exact (zip4 _ _).1.trans (hc 0 0 (by decide) (by decide))
      | ⟨1, _⟩ => exact (zip4 _ _).2.1.trans (hc 0 1 (by decide) (by decide))
      | ⟨2, _⟩ => exact (zip4 _ _).2.2.1.trans (hc 1 0 (by decide) (by decide))
      | ⟨3, _⟩ => exact (zip4 _ _).2.2.2.trans (hc 1 1 (by decide) (by decide))
    · obtain rfl : sg = false := by simpa using g3.1
      exact e1 _ rfl
    · rw [fcvtParts_eq (by decide)]
      congr 1; funext i
      rw [fcvtz_fits (fits_wide h (hf i))]
      unfold Hw.qmovn
      have hw64 := fits_wide h (hf i)
      rw [val_lane_of_range (by decide) hw64.2.1 hw64.2.2, clamp_fits (hf i).2.1 (hf i).2.2]
    · have hz := fun x y : Vec 32 4 => i_unzip_lo_eq h (k := .int) (w := 32) (r := .r128) (n := 4) (by simp [Kind.okW, IsW]) rfl rfl x y
      refine bind_of (hz _ _) _ |>.trans ?_
      rw [Vec.recast_self]
      congr 1
      have hc : ∀ p j, (hp : p < 2) → (hj : j < 2) → (Vec.recast 32 4 (fun i : Fin 2 => Hw.fcvtz sg 64 (Hw.part 2 p a i))).at_ (2 * j) =
          Spec.lane 32 (Fp.truncInt (a ⟨p * 2 + j, by omega⟩)) := fun p j hp hj => by
        rw [recast_at (q := 2) (by decide) (by decide) rfl rfl, show 2 * j / 2 = j by omega, show 2 * j % 2 = 0 by omega, Vec.at_lt _ hj, fp p j hp hj,
          fcvtz_fits (fits_wide h (hf _)), ← lane_trunc]
        rfl
      funext i
      match i with
      | ⟨0, _⟩ => exact (unzip4 _ _).1.trans (hc 0 0 (by decide) (by decide))
      | ⟨1, _⟩ => exact (unzip4 _ _).2.1.trans (hc 0 1 (by decide) (by decide))
      | ⟨2, _⟩ => exact (unzip4 _ _).2.2.1.trans (hc 1 0 (by decide) (by decide))
      | ⟨3, _⟩ => exact (unzip4 _ _).2.2.2.trans (hc 1 1 (by decide) (by decide))
    · exact lanesM_eq_some.2 fun i => f2i_fits (hf i)
    · exfalso
      unfold Cfg.hasF64i32 at hd
      cases sg <;> simp at hd g1 g2 g3 <;> obtain ⟨o1, o2, o3, o4, o5, o6, o7, o8, o9, o10, o11, o12, o13, o14, o15, o16, o17, o18, o19⟩ := h <;>
        simp [Cfg.neon32, Cfg.neon64] at * <;> grind
  · rw [if_pos (show c.avx = true from hr)]
    split_ifs with g1 g2
    · exact e1 _ rfl
    · exact e2 _ _ g2.symm (by decide)
    · exfalso
      have hx : c.sse2 = true := h.sse3 (h.ssse3 (h.sse41 (h.avx hr)))
      exact g1 (hd (by simpa using g2) hx)
  · rw [if_pos (show c.avx512f = true from hr)]; exact e2 _ _ rfl (by decide)

theorem i_f64i32_fits (sg : Bool) (hN : c.VLen 32 N) (hd : c.hasF64i32 sg) (a : Vec 64 N) (hf : ∀ i, Fits sg 32 (a i)) :
    i_f64i32 c sg a = some (fun i => Spec.lane 32 (Fp.truncInt (a i))) := by
  unfold i_f64i32
  by_cases h4 : N = 4
  · rw [if_pos h4]; exact f64i32_fits h sg (r := .r128) rfl hd h4 a hf
  rw [if_neg h4]
  by_cases h8 : c.avx = true ∧ N = 8
  · rw [if_pos h8]; exact f64i32_fits h sg (r := .r256) h8.1 hd h8.2 a hf
  rw [if_neg h8]
  by_cases h16 : c.avx512f = true ∧ N = 16
  · rw [if_pos h16]; exact f64i32_fits h sg (r := .r512) h16.1 hd h16.2 a hf
  rw [if_neg h16]
  obtain ⟨e, K, hK⟩ := VLen.multi32 h hN h4 (fun g => h8 ⟨h.avx2 g.1, g.2⟩) h16
  dsimp only
  rw [e]
  have hNK : N / (c.fast 32).lanes 32 = K := by rw [hK, Nat.mul_div_cancel _ (lanes_pos iw32 _)]
  rw [hNK]
  have hr : c.hasVec .flt 64 (c.fast 32) = true := by
    unfold Cfg.fast Cfg.hasInt
    rcases fastF_cases h with ⟨h1, h2, h3, e⟩ | ⟨h1, h2, h3, e⟩ | ⟨h1, h2, h3, e⟩ | ⟨h1, h2, h3, e⟩ <;> simp [h1, h2, h3, Cfg.hasVec]
  refine convDown_eq' (G := fun x => Spec.lane 32 (Fp.truncInt x)) ?_ ?_ (lanes_pos iw32 _) hK a
    (fun I hI => f64i32_fits h sg hr hd rfl _ (part_all hK hf hI))
  · split_ifs
    · decide
    · exact lanes_pos iw64 _
  · unfold Cfg.avxOnly1 Cfg.fast Cfg.hasInt
    rcases fastF_cases h with ⟨h1, h2, h3, e⟩ | ⟨h1, h2, h3, e⟩ | ⟨h1, h2, h3, e⟩ | ⟨h1, h2, h3, e⟩ <;> simp [h1, h2, h3, Reg.lanes, Reg.bits]

/-! ## 64-bit integers -/

theorem f64i64_fits (sg : Bool) {r : Reg} (hr : c.hasVec .flt 64 r = true) (hd : c.sse2 = true → c.avx512dq = true) (a : Vec 64 n)
    (hf : ∀ i, Fits sg 64 (a i)) : f64i64 c sg r a = some (fun i => Spec.lane 64 (Fp.truncInt (a i))) := by
  have e1 : some (a.map (Hw.cvtt sg 64)) = some (fun i => Spec.lane 64 (Fp.truncInt (a i))) := by
    congr 1; funext i; exact cvtt_fits (hf i)
  have e2 : some (a.map (Hw.fcvtz sg 64)) = some (fun i => Spec.lane 64 (Fp.truncInt (a i))) := by
    congr 1; funext i; exact fcvtz_fits (hf i)
  unfold f64i64
  cases r <;> dsimp only
  · split_ifs with g1 g2 g3 g4 g5
    · exact e1
    · exact e2
    · exact e2
    · exact e2
    · exact lanesM_eq_some.2 fun i => f2i_fits (hf i)
    · exfalso; clear e1 e2; cfg_absurd h
  · have hx : c.sse2 = true := h.sse3 (h.ssse3 (h.sse41 (h.avx hr)))
    rw [if_pos (show c.avx = true from hr), if_pos (hd hx)]; exact e1
  · have hx : c.sse2 = true := h.sse3 (h.ssse3 (h.sse41 (h.avx (h.avx2 (h.avx512f hr)))))
    rw [if_pos (show c.avx512f = true from hr), if_pos (hd hx)]; exact e1

theorem i_f64i64_fits (sg : Bool) (hN : c.FLen 64 N) (hd : c.sse2 = true → c.avx512dq = true) (a : Vec 64 N)
    (hf : ∀ i, Fits sg 64 (a i)) : i_f64i64 c sg a = some (fun i => Spec.lane 64 (Fp.truncInt (a i))) := by
  unfold i_f64i64
  split_ifs with h4 h8 h16
  · exact f64i64_fits h sg (r := .r128) rfl hd a hf
  · exact f64i64_fits h sg (r := .r256) h8.1 hd a hf
  · exact f64i64_fits h sg (r := .r512) h16.1 hd a hf
  all_goals
    obtain ⟨e, K, hK⟩ := FLen.multi hN h4 h8 h16
    dsimp only
    rw [e]
    have hNK : N / c.fastF.lanes 64 = K := by rw [hK, Nat.mul_div_cancel _ (lanes_pos iw64 _)]
    rw [hNK]
    refine convUp_eq' (G := fun x => Spec.lane 64 (Fp.truncInt x)) ?_ ?_ (lanes_pos iw64 _) hK a
      (fun I hI => f64i64_fits h sg (fastF_has c 64) hd _ (part_all hK hf hI))
    · first | decide | exact lanes_pos iw64 _
    · unfold Cfg.avxOnly1 at *
      rcases fastF_cases h with ⟨h1, h2, h3, e⟩ | ⟨h1, h2, h3, e⟩ | ⟨h1, h2, h3, e⟩ | ⟨h1, h2, h3, e⟩ <;> rw [e] <;> simp_all [Reg.lanes, Reg.bits]

/-- The builds whose `float` to `uint64` goes through a cast to `int64_t`. -/
def Cfg.castI64 (c : Cfg) : Prop := c.null = true ∨ c.neon32 = true ∨ (c.altivec = true ∧ c.vsx206 = false)

theorem f32i64_fits (sg : Bool) {r : Reg} (hr : c.hasVec .flt 32 r = true) (hd : c.sse2 = true → c.avx512dq = true)
    (hv : r = .r256 → c.avx512vl = true) (hn : n = r.lanes 32) (a : Vec 32 n)
    (hf : ∀ i, Fits sg 64 (a i)) (hc : c.castI64 → ∀ i, Fp.truncInt (a i) < 2 ^ 63) :
    f32i64 c sg r a = some (fun i => Spec.lane 64 (Fp.truncInt (a i))) := by
  have e1 : some (a.map (Hw.cvtt sg 64)) = some (fun i => Spec.lane 64 (Fp.truncInt (a i))) := by
    congr 1; funext i; exact cvtt_fits (hf i)
  have fitsS : c.castI64 → ∀ i, Fits true 64 (a i) := fun g i => by
    refine ⟨(hf i).1, ?_, ?_⟩
    · refine Int.le_trans ?_ (hf i).2.1
      cases sg <;> decide
    · have := hc g i
      have e : hi true 64 = 2 ^ 63 - 1 := by decide
      omega
  unfold f32i64
  cases r <;> dsimp only
  · split_ifs with g1 g2 g3
    · exact e1
    · have hx : c.sse2 = false := by
        by_contra g
        clear e1 fitsS hf hc
        cfg_absurd h
      have hav : c.fastF = .r128 := by
        rcases fastF_cases h with g | g | g | g
        · exact g.2.2.2
        all_goals (exfalso; have := h.sse3 (h.ssse3 (h.sse41 (h.avx g.1))); rw [hx] at this; cases this)
      rw [i_f32f64_eq h (.inl ⟨.r128, rfl, hn⟩), Option.bind_some,
        i_f64i64_fits h sg (FLen.of_dvd (by rw [hn]; decide) (by rw [hn, hav]; decide)) hd]
      · congr 1; funext i; rw [truncInt_conv (hf i).1]
      · intro i
        have := hf i
        exact ⟨(conv64_exact this.1).1, by rw [truncInt_conv this.1]; exact this.2.1, by rw [truncInt_conv this.1]; exact this.2.2⟩
    · refine lanesM_eq_some.2 fun i => f2i_fits (fitsS ?_ i)
      unfold Cfg.castI64
      rcases g3 with g | g | g
      · exact .inl g
      · exact .inr (.inl g)
      · exact .inr (.inr ⟨g, by simpa using fun e => g2 (.inr (.inl e))⟩)
    · exfalso; clear e1 fitsS hf hc; cfg_absurd h
  · have hx : c.sse2 = true := h.sse3 (h.ssse3 (h.sse41 (h.avx hr)))
    rw [if_pos (show c.avx = true from hr), if_pos ⟨hd hx, hv rfl⟩]; exact e1
  · have hx : c.sse2 = true := h.sse3 (h.ssse3 (h.sse41 (h.avx (h.avx2 (h.avx512f hr)))))
    rw [if_pos (show c.avx512f = true from hr), if_pos (hd hx), fcvtParts_eq (by decide)]; exact e1

theorem i_f32i64_fits (sg : Bool) (hN : c.FLen 32 N) (hd : c.sse2 = true → c.avx512dq = true) (hv : c.regF 32 N = .r256 → c.avx512vl = true)
    (a : Vec 32 N) (hf : ∀ i, Fits sg 64 (a i)) (hc : c.castI64 → ∀ i, Fp.truncInt (a i) < 2 ^ 63) :
    i_f32i64 c sg a = some (fun i => Spec.lane 64 (Fp.truncInt (a i))) := by
  unfold i_f32i64
  by_cases h4 : N = 4
  · rw [if_pos h4]; exact f32i64_fits h sg (r := .r128) rfl hd (by simp) h4 a hf hc
  rw [if_neg h4]
  by_cases h8 : c.avx = true ∧ N = 8
  · rw [if_pos h8]
    exact f32i64_fits h sg (r := .r256) h8.1 hd (fun _ => hv (by rw [h8.2]; exact regF_256 c (.inl rfl) h8.1)) h8.2 a hf hc
  rw [if_neg h8]
  by_cases h16 : c.avx512f = true ∧ N = 16
  · rw [if_pos h16]; exact f32i64_fits h sg (r := .r512) h16.1 hd (by simp) h16.2 a hf hc
  rw [if_neg h16]
  obtain ⟨e, K, hK⟩ := FLen.multi hN h4 h8 h16
  rw [e] at hv
  dsimp only
  rw [e]
  have hNK : N / c.fastF.lanes 32 = K := by rw [hK, Nat.mul_div_cancel _ (lanes_pos iw32 _)]
  rw [hNK]
  refine convUp_eq' (G := fun x => Spec.lane 64 (Fp.truncInt x)) ?_ ?_ (lanes_pos iw32 _) hK a
    (fun I hI => f32i64_fits h sg (fastF_has c 32) hd hv rfl _ (part_all hK hf hI) (fun g => part_all (P := fun x => Fp.truncInt x < 2 ^ 63) hK (hc g) hI))
  · split_ifs
    · decide
    · exact lanes_pos iw64 _
  · unfold Cfg.avxOnly1
    rcases fastF_cases h with ⟨h1, h2, h3, e⟩ | ⟨h1, h2, h3, e⟩ | ⟨h1, h2, h3, e⟩ | ⟨h1, h2, h3, e⟩ <;> rw [e] <;> simp [h1, h2, Reg.lanes, Reg.bits]

end

/-! ## C49 -/

/-- C49: `float` to 32-bit integers drops the fraction, on every build and for every length, when the integer part fits. -/
theorem C49_float32_to_int32 {c : Cfg} (h : c.Ok) (sg : Bool) (hN : c.FLen 32 N) (a : Vec 32 N)
    (hf : ∀ i, Fp.isFinite (a i) = true ∧ lo sg 32 ≤ Fp.truncInt (a i) ∧ Fp.truncInt (a i) ≤ hi sg 32) :
    ∃ r, i_f32i32 c sg a = some r ∧ ∀ i, val sg (r i) = Fp.truncInt (a i) :=
  ⟨_, i_f32i32_fits h sg hN a hf, fun i => val_lane_of_range (by decide) (hf i).2.1 (hf i).2.2⟩

/-- C49: `double` to 32-bit integers; the unsigned one does not exist on x86 before AVX-512. -/
theorem C49_float64_to_int32_partial {c : Cfg} (h : c.Ok) (sg : Bool) (hN : c.VLen 32 N)
    (hd : sg = false → c.sse2 = true → c.avx512f = true) (a : Vec 64 N)
    (hf : ∀ i, Fp.isFinite (a i) = true ∧ lo sg 32 ≤ Fp.truncInt (a i) ∧ Fp.truncInt (a i) ≤ hi sg 32) :
    ∃ r, i_f64i32 c sg a = some r ∧ ∀ i, val sg (r i) = Fp.truncInt (a i) :=
  ⟨_, i_f64i32_fits h sg hN hd a hf, fun i => val_lane_of_range (by decide) (hf i).2.1 (hf i).2.2⟩

/-- C49: `double` to 64-bit integers; on x86 it needs AVX512DQ. -/
theorem C49_float64_to_int64_partial {c : Cfg} (h : c.Ok) (sg : Bool) (hN : c.FLen 64 N)
    (hd : c.sse2 = true → c.avx512dq = true) (a : Vec 64 N)
    (hf : ∀ i, Fp.isFinite (a i) = true ∧ lo sg 64 ≤ Fp.truncInt (a i) ∧ Fp.truncInt (a i) ≤ hi sg 64) :
    ∃ r, i_f64i64 c sg a = some r ∧ ∀ i, val sg (r i) = Fp.truncInt (a i) :=
  ⟨_, i_f64i64_fits h sg hN hd a hf, fun i => val_lane_of_range (by decide) (hf i).2.1 (hf i).2.2⟩

/-- C49: `float` to 64-bit integers; on x86 it needs AVX512DQ (and AVX512VL for eight lanes), and the builds that cast lane by lane
take unsigned values below `2 ^ 63` only. -/
theorem C49_float32_to_int64_partial {c : Cfg} (h : c.Ok) (sg : Bool) (hN : c.FLen 32 N)
    (hd : c.sse2 = true → c.avx512dq = true) (hv : c.regF 32 N = .r256 → c.avx512vl = true) (a : Vec 32 N)
    (hf : ∀ i, Fp.isFinite (a i) = true ∧ lo sg 64 ≤ Fp.truncInt (a i) ∧ Fp.truncInt (a i) ≤ hi sg 64)
    (hc : c.null = true ∨ c.neon32 = true ∨ (c.altivec = true ∧ c.vsx206 = false) → ∀ i, Fp.truncInt (a i) < 2 ^ 63) :
    ∃ r, i_f32i64 c sg a = some r ∧ ∀ i, val sg (r i) = Fp.truncInt (a i) :=
  ⟨_, i_f32i64_fits h sg hN hd hv a hf hc, fun i => val_lane_of_range (by decide) (hf i).2.1 (hf i).2.2⟩

theorem f2i32_fits {c : Cfg} (h : c.Ok) (hw : w = 32 ∨ w = 64) (hF : c.FLen 32 N) (hV : c.VLen 32 N) (a : Vec w N)
    (hf : ∀ i, Fits true 32 (a i)) : i_f2i32 c true w a = some (fun i => Spec.lane 32 (Fp.truncInt (a i))) := by
  unfold i_f2i32
  rcases hw with e | e <;> subst e
  · rw [dif_pos rfl]; exact i_f32i32_fits h true hF a hf
  · rw [dif_neg (by decide), dif_pos rfl]; exact i_f64i32_fits h true hV (by intro g; cases g) a hf

theorem lane_narrow {v : Nat} (hv : v ≤ 32) (z : Int) : (Spec.lane 32 z).setWidth v = Spec.lane v z := by
  unfold Spec.lane
  apply BitVec.eq_of_toNat_eq
  rw [BitVec.toNat_setWidth, BitVec.toNat_ofInt, BitVec.toNat_ofInt]
  obtain ⟨d, e⟩ := Nat.exists_eq_add_of_le hv
  have hd : (2 ^ v : Int) ∣ 2 ^ 32 := by rw [e, pow_add]; exact Int.dvd_mul_right _ _
  have h0 : (0 : Int) < 2 ^ v := by positivity
  have e1 : z % 2 ^ 32 % 2 ^ v = z % 2 ^ v := Int.emod_emod_of_dvd z hd
  apply Int.ofNat_inj.1
  push_cast
  rw [Int.toNat_of_nonneg (Int.emod_nonneg z (by decide)), Int.toNat_of_nonneg (Int.emod_nonneg z (Int.ne_of_gt h0))]
  exact e1

theorem fits_small {sg : Bool} (hv : v = 8 ∨ v = 16) {x : BitVec w} (hf : Fits sg v x) : Fits true 32 x := by
  refine fits_mono hf ?_ ?_ <;> rcases hv with e | e <;> subst e <;> cases sg <;> decide

/-- C49: floating point to 16-bit integers, both signs, on every build and for every length. -/
theorem C49_float_to_int16 {c : Cfg} (h : c.Ok) (sg : Bool) (hw : w = 32 ∨ w = 64) (hN : c.VLen 16 N) (a : Vec w N)
    (hf : ∀ i, Fp.isFinite (a i) = true ∧ lo sg 16 ≤ Fp.truncInt (a i) ∧ Fp.truncInt (a i) ≤ hi sg 16) :
    ∃ r, i_f2i16 c w a = some r ∧ ∀ i, val sg (r i) = Fp.truncInt (a i) := by
  unfold i_f2i16
  rw [f2i32_fits h hw (FLen.of_VLen h (.inr rfl) hN) (VLen.to32 h (.inr rfl) hN) a (fun i => fits_small (.inr rfl) (hf i)), Option.bind_some]
  refine ⟨_, i_trunc32_16_eq h hN _, fun i => ?_⟩
  unfold trOf
  rw [lane_narrow (by decide)]
  exact val_lane_of_range (by decide) (hf i).2.1 (hf i).2.2

/-- C49: floating point to 8-bit integers, both signs, wherever 32-bit to 8-bit truncation works (C29 lists the broken lengths). -/
theorem C49_float_to_int8_partial {c : Cfg} (h : c.Ok) (sg : Bool) (hw : w = 32 ∨ w = 64) (hN : c.VLen 8 N)
    (hx : c.avx2 = true → c.avx512f = false → N = 16) (hy : c.avx512f = true → c.avx512bw = false → N ≤ 32) (a : Vec w N)
    (hf : ∀ i, Fp.isFinite (a i) = true ∧ lo sg 8 ≤ Fp.truncInt (a i) ∧ Fp.truncInt (a i) ≤ hi sg 8) :
    ∃ r, i_f2i8 c w a = some r ∧ ∀ i, val sg (r i) = Fp.truncInt (a i) := by
  unfold i_f2i8
  rw [f2i32_fits h hw (FLen.of_VLen h (.inl rfl) hN) (VLen.to32 h (.inl rfl) hN) a (fun i => fits_small (.inl rfl) (hf i)), Option.bind_some]
  refine ⟨_, i_trunc32_8_eq h hN hx hy _, fun i => ?_⟩
  unfold trOf
  rw [lane_narrow (by decide)]
  exact val_lane_of_range (by decide) (hf i).2.1 (hf i).2.2

/-! ### Limits -/

/-- C49: on the portable build a lane that does not fit is undefined behaviour, for every vector of one register. -/
theorem C49_portable_undefined {c : Cfg} (hn : c.null = true) (sg : Bool) (a : Vec 32 4)
    (hf : ∃ i, ¬ (Fp.isFinite (a i) = true ∧ lo sg 32 ≤ Fp.truncInt (a i) ∧ Fp.truncInt (a i) ≤ hi sg 32)) : i_f32i32 c sg a = none := by
  obtain ⟨i, hi⟩ := hf
  unfold i_f32i32 f32i32
  rw [if_pos rfl]
  dsimp only
  rw [if_pos hn]
  cases e : lanesM (fun i => Null.f2i sg 32 (a i)) with
  | none => rfl
  | some g =>
    have := lanesM_eq_some.1 e i
    unfold Null.f2i at this
    rw [if_neg hi] at this
    cases this

/-- C49, finding: on the portable build `to_uint64` of a `float` from `2 ^ 63` on is undefined although it fits. -/
theorem C49_portable_uint64_undefined {c : Cfg} (h : c.Ok) (hn : c.null = true) (a : Vec 32 4) (i : Fin 4) (hi : 2 ^ 63 ≤ Fp.truncInt (a i)) :
    i_f32i64 c false a = none := by
  unfold i_f32i64 f32i64
  rw [if_pos rfl]
  dsimp only
  rw [if_neg (by intro g; cfg_absurd h), if_neg (by rintro (g | g | g) <;> cfg_absurd h), if_pos (.inl hn)]
  cases e : lanesM (fun i => (Null.f2i true 64 (a i) : Option (BitVec 64))) with
  | none => rfl
  | some g =>
    have := lanesM_eq_some.1 e i
    unfold Null.f2i at this
    rw [if_neg (by rintro ⟨-, -, g⟩; have e : Spec.hi true 64 = 2 ^ 63 - 1 := by decide
                   omega)] at this
    cases this

/-- C49: `double` to `uint32` does not exist on x86 before AVX-512. -/
theorem C49_float64_to_uint32_missing {c : Cfg} (h : c.Ok) (hx : c.sse2 = true) (hf : c.avx512f = false) (a : Vec 64 4) :
    i_f64i32 c false a = none := by
  unfold i_f64i32 f64i32
  rw [if_pos rfl]
  dsimp only
  split_ifs <;> first | rfl | (exfalso; simp at *; done) | cfg_absurd h

/-- C49: `double` to 64-bit integers does not exist on x86 without AVX512DQ. -/
theorem C49_float64_to_int64_missing {c : Cfg} (h : c.Ok) (hx : c.sse2 = true) (hf : c.avx512dq = false) (sg : Bool) (a : Vec 64 2) :
    i_f64i64 c sg a = none := by
  unfold i_f64i64 f64i64
  rw [if_pos rfl]
  dsimp only
  split_ifs <;> first | rfl | cfg_absurd h

/-- C49, finding: eight `float` lanes to 64-bit integers need AVX512VL too, sixteen do not. -/
theorem C49_float32x8_to_int64_missing {c : Cfg} (ha : c.avx = true) (hf : c.avx512vl = false) (sg : Bool) (a : Vec 32 8) :
    i_f32i64 c sg a = none := by
  unfold i_f32i64 f32i64
  rw [if_neg (by decide), if_pos ⟨ha, rfl⟩]
  dsimp only
  rw [if_pos ha, if_neg (by simp [hf])]

/-- C49: outside the range the builds differ: `2 ^ 31` gives the smallest integer on x86 and the largest on NEON. -/
theorem C49_out_of_range_differs :
    i_f32i32 Cfg.sse2Only true (Vec.splat 0x4f000000#32 : Vec 32 4) = some (Vec.splat 0x80000000#32) ∧
    i_f32i32 Cfg.neonA64 true (Vec.splat 0x4f000000#32 : Vec 32 4) = some (Vec.splat 0x7fffffff#32) ∧
    i_f32i32 Cfg.portable true (Vec.splat 0x4f000000#32 : Vec 32 4) = none := by
  refine ⟨congrArg some (funext (by decide +kernel)), congrArg some (funext (by decide +kernel)), C49_portable_undefined rfl _ _ ⟨0, ?_⟩⟩
  have : ¬ Fp.truncInt (0x4f000000#32) ≤ hi true 32 := by decide +kernel
  exact fun g => this g.2.2

-- the hypotheses are met: -1.75 and 3e9 as floats
example : Fp.isFinite 0xbfe00000#32 = true ∧ lo true 32 ≤ Fp.truncInt 0xbfe00000#32 ∧ Fp.truncInt 0xbfe00000#32 = -1 ∧
    Fp.truncInt 0xbfe00000#32 ≤ hi true 32 := by decide +kernel
example : Fp.isFinite 0x4f32d05e#32 = true ∧ Fp.truncInt 0x4f32d05e#32 = 3000000000 ∧ Fp.truncInt 0x4f32d05e#32 ≤ hi false 32 := by decide +kernel
example : i_f32i32 Cfg.sse2Only false (Vec.splat 0x4f32d05e#32 : Vec 32 4) = some (Vec.splat 0xb2d05e00#32) := by
  rw [i_f32i32_fits (N := 4) Cfg.sse2Only_ok false (.inl ⟨.r128, rfl, rfl⟩) _ (fun i => ⟨by decide +kernel +revert, by decide +kernel +revert, by decide +kernel +revert⟩)]
  exact congrArg some (funext (by decide +kernel))

end Simdpp
