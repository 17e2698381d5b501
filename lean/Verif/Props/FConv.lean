import Verif.Props.FConvKern
import Verif.Props.Samples
import Verif.Props.Reduce

/-!
# C46: integers to floating point, `float` to `double` and back, whole vectors
-/

namespace Simdpp
open Spec Spec.Flt Spec.Fp Sh

variable {w v n N : Nat}

attribute [local irreducible] Hw.i2f Fp.conv Hw.convZ Fp.ofInt Fp.add Hw.cvtt Hw.fcvtz Fp.num Fp.round

/-- `N` is a length of the vector types with `w`-bit floating-point lanes. -/
def Cfg.FLen (c : Cfg) (w N : Nat) : Prop :=
  (∃ r : Reg, c.hasVec .flt w r = true ∧ N = r.lanes w) ∨ ∃ K, 2 ≤ K ∧ N = K * c.fastF.lanes w

theorem fastF_has (c : Cfg) (w : Nat) : c.hasVec .flt w c.fastF = true := by
  unfold Cfg.fastF
  split_ifs with h1 h2
  · exact h1
  · exact h2
  · rfl

theorem regF_128 (c : Cfg) (hw : w = 32 ∨ w = 64) : c.regF w (Reg.r128.lanes w) = .r128 := by unfold Cfg.regF; rw [if_pos rfl]
theorem regF_256 (c : Cfg) (hw : w = 32 ∨ w = 64) (h : c.avx = true) : c.regF w (Reg.r256.lanes w) = .r256 := by
  unfold Cfg.regF
  rcases hw with e | e <;> subst e <;> rw [if_neg (by decide), if_pos ⟨h, rfl⟩]
theorem regF_512 (c : Cfg) (hw : w = 32 ∨ w = 64) (h : c.avx512f = true) : c.regF w (Reg.r512.lanes w) = .r512 := by
  unfold Cfg.regF
  rcases hw with e | e <;> subst e <;> rw [if_neg (by decide), if_neg (by rintro ⟨-, g⟩; revert g; decide), if_pos ⟨h, rfl⟩]

/-- A vector that is not a single register. -/
theorem FLen.multi {c : Cfg} (hN : c.FLen w N) (h4 : N ≠ Reg.r128.lanes w) (h8 : ¬ (c.avx = true ∧ N = Reg.r256.lanes w))
    (h16 : ¬ (c.avx512f = true ∧ N = Reg.r512.lanes w)) : c.regF w N = c.fastF ∧ ∃ K, N = K * c.fastF.lanes w := by
  refine ⟨?_, ?_⟩
  · unfold Cfg.regF; rw [if_neg h4, if_neg h8, if_neg h16]
  · rcases hN with ⟨r, hr, e⟩ | ⟨K, -, e⟩
    · cases r
      · exact absurd e h4
      · exact absurd ⟨hr, e⟩ h8
      · exact absurd ⟨hr, e⟩ h16
    · exact ⟨K, e⟩

theorem fastF_cases {c : Cfg} (h : c.Ok) : (c.avx = false ∧ c.avx2 = false ∧ c.avx512f = false ∧ c.fastF = .r128) ∨
    (c.avx = true ∧ c.avx2 = false ∧ c.avx512f = false ∧ c.fastF = .r256) ∨
    (c.avx = true ∧ c.avx2 = true ∧ c.avx512f = false ∧ c.fastF = .r256) ∨
    (c.avx = true ∧ c.avx2 = true ∧ c.avx512f = true ∧ c.fastF = .r512) := by
  have h1 := h.avx2; have h2 := h.avx512f
  unfold Cfg.fastF
  cases g1 : c.avx <;> cases g2 : c.avx2 <;> cases g3 : c.avx512f <;> simp_all

theorem FLen.of_dvd {c : Cfg} (h0 : 0 < N) (hd : c.fastF.lanes w ∣ N) : c.FLen w N := by
  obtain ⟨K, e⟩ := hd
  rw [Nat.mul_comm] at e
  by_cases h1 : K = 1
  · exact .inl ⟨c.fastF, fastF_has c w, by rw [e, h1, Nat.one_mul]⟩
  · refine .inr ⟨K, ?_, e⟩
    rcases Nat.eq_zero_or_pos K with g | g
    · subst g; omega
    · omega

theorem vlen_facts {c : Cfg} (h : c.Ok) (hw : w = 8 ∨ w = 16) (hN : c.VLen w N) : 0 < N ∧ 8 ∣ N ∧ (c.avx512f = true → N = 8 ∨ 16 ∣ N) := by
  have hpos : 0 < N := by
    rcases hN with ⟨r, -, eN⟩ | ⟨K, hK, eN⟩
    · subst eN; rcases hw with e | e <;> subst e <;> cases r <;> decide
    · have := lanes_pos (w := w) (by rcases hw with e | e <;> subst e <;> simp [IsW]) (c.fast w)
      rw [eN]; exact Nat.mul_pos (by omega) this
  have h8 : 8 ∣ N := by
    rcases hN with ⟨r, -, eN⟩ | ⟨K, hK, eN⟩
    · subst eN; rcases hw with e | e <;> subst e <;> cases r <;> decide
    · rw [eN]
      refine Dvd.dvd.mul_left ?_ K
      rcases hw with e | e <;> subst e <;> cases c.fast _ <;> decide
  have h16 : c.avx512f = true → N = 8 ∨ 16 ∣ N := by
    intro hf
    have h2 := h.avx512f hf
    rcases hN with ⟨r, -, eN⟩ | ⟨K, hK, eN⟩
    · subst eN; rcases hw with e | e <;> subst e <;> cases r <;> decide
    · right
      rw [eN]
      refine Dvd.dvd.mul_left ?_ K
      have : c.fast w ≠ .r128 := by
        unfold Cfg.fast Cfg.hasInt
        rcases hw with e | e <;> subst e <;> simp [h2] <;> split_ifs <;> simp
      rcases hw with e | e <;> subst e
      · cases c.fast 8 <;> decide
      · cases hq : c.fast 16
        · exact absurd hq this
        · decide
        · decide
  exact ⟨hpos, h8, h16⟩

/-- Lengths of 8-bit and 16-bit integer vectors are lengths of `float` vectors. -/
theorem FLen.of_VLen {c : Cfg} (h : c.Ok) (hw : w = 8 ∨ w = 16) (hN : c.VLen w N) : c.FLen 32 N := by
  obtain ⟨hpos, h8, h16⟩ := vlen_facts h hw hN
  rcases fastF_cases h with ⟨h1, h2, h3, e⟩ | ⟨h1, h2, h3, e⟩ | ⟨h1, h2, h3, e⟩ | ⟨h1, h2, h3, e⟩
  · exact FLen.of_dvd hpos (by rw [e]; exact Dvd.dvd.trans (by decide) h8)
  · exact FLen.of_dvd hpos (by rw [e]; exact h8)
  · exact FLen.of_dvd hpos (by rw [e]; exact h8)
  · rcases h16 h3 with g | g
    · exact .inl ⟨.r256, h1, g⟩
    · exact FLen.of_dvd hpos (by rw [e]; exact g)

/-- They are lengths of 32-bit integer vectors. -/
theorem VLen.to32 {c : Cfg} (h : c.Ok) (hw : w = 8 ∨ w = 16) (hN : c.VLen w N) : c.VLen 32 N := by
  obtain ⟨hpos, h8, h16⟩ := vlen_facts h hw hN
  have mk : (c.fast 32).lanes 32 ∣ N → c.VLen 32 N := by
    rintro ⟨K, e⟩
    rw [Nat.mul_comm] at e
    by_cases h1 : K = 1
    · exact .inl ⟨c.fast 32, fast_has c 32, by rw [e, h1, Nat.one_mul]⟩
    · refine .inr ⟨K, ?_, e⟩
      rcases Nat.eq_zero_or_pos K with g | g
      · subst g; omega
      · omega
  unfold Cfg.fast Cfg.hasInt at mk
  rcases fastF_cases h with ⟨h1, h2, h3, e⟩ | ⟨h1, h2, h3, e⟩ | ⟨h1, h2, h3, e⟩ | ⟨h1, h2, h3, e⟩
  · exact mk (by simp [h2, h3]; exact Dvd.dvd.trans (by decide) h8)
  · exact mk (by simp [h2, h3]; exact Dvd.dvd.trans (by decide) h8)
  · exact mk (by simp [h2, h3]; exact h8)
  · rcases h16 h3 with g | g
    · exact .inl ⟨.r256, by simpa [Cfg.hasInt] using h2, g⟩
    · exact mk (by simp [h3]; exact g)

section
variable {c : Cfg} (h : c.Ok)
include h

/-! ## The functions, lane by lane -/

theorem i_i32f32_eq (sg : Bool) (hN : c.FLen 32 N) (a : Vec 32 N) :
    i_i32f32 c sg a = some (fun i => i32f32lane c sg (c.regF 32 N) (a i)) := by
  unfold i_i32f32
  split_ifs with h4 h8 h16
  · rw [i32f32_eq h sg (r := .r128) rfl, show c.regF 32 N = .r128 by rw [h4]; exact regF_128 c (.inl rfl)]
  · rw [i32f32_eq h sg (r := .r256) h8.1, show c.regF 32 N = .r256 by rw [h8.2]; exact regF_256 c (.inl rfl) h8.1]
  · rw [i32f32_eq h sg (r := .r512) h16.1, show c.regF 32 N = .r512 by rw [h16.2]; exact regF_512 c (.inl rfl) h16.1]
  all_goals
    obtain ⟨e, K, hK⟩ := FLen.multi hN h4 h8 h16
    dsimp only
    rw [e]
    have hNK : N / c.fastF.lanes 32 = K := by rw [hK, Nat.mul_div_cancel _ (lanes_pos iw32 _)]
    rw [hNK]
    refine convDown_eq ?_ ?_ (lanes_pos iw32 _) hK (fun x => i32f32_eq h sg (fastF_has c 32) x) a
    · first | decide | exact lanes_pos iw32 _
    · unfold Cfg.avxOnly1 at *
      rcases fastF_cases h with ⟨h1, h2, h3, e⟩ | ⟨h1, h2, h3, e⟩ | ⟨h1, h2, h3, e⟩ | ⟨h1, h2, h3, e⟩ <;> rw [e] <;> simp_all [Reg.lanes, Reg.bits]

theorem VLen.multi32 (hN : c.VLen 32 N) (h4 : N ≠ 4) (h8 : ¬ (c.avx2 = true ∧ N = 8)) (h16 : ¬ (c.avx512f = true ∧ N = 16)) :
    c.regOf 32 N = c.fast 32 ∧ ∃ K, N = K * (c.fast 32).lanes 32 := by
  rcases hN with ⟨r, hr, e⟩ | ⟨K, hK, e⟩
  · cases r
    · exact absurd e h4
    · exact absurd ⟨hr, e⟩ h8
    · exact absurd ⟨hr, e⟩ h16
  · exact ⟨by rw [e]; exact regOf_multi h iw32 iw32 (Nat.le_refl _) hK, K, e⟩

theorem i_i32f64_eq (sg : Bool) (hN : c.VLen 32 N) (a : Vec 32 N) : i_i32f64 c sg a = some (fun i => Hw.i2f sg 64 (a i)) := by
  unfold i_i32f64
  by_cases h4 : N = 4
  · rw [if_pos h4]; exact i32f64_eq h sg (r := .r128) rfl h4 a
  rw [if_neg h4]
  by_cases h8 : c.avx2 = true ∧ N = 8
  · rw [if_pos h8]; exact i32f64_eq h sg (r := .r256) h8.1 h8.2 a
  rw [if_neg h8]
  by_cases h16 : c.avx512f = true ∧ N = 16
  · rw [if_pos h16]; exact i32f64_eq h sg (r := .r512) h16.1 h16.2 a
  rw [if_neg h16]
  obtain ⟨e, K, hK⟩ := VLen.multi32 h hN h4 h8 h16
  dsimp only
  rw [e]
  have hNK : N / (c.fast 32).lanes 32 = K := by rw [hK, Nat.mul_div_cancel _ (lanes_pos iw32 _)]
  rw [hNK]
  refine convUp_eq ?_ ?_ (lanes_pos iw32 _) hK (fun x => i32f64_eq h sg (fast_has c 32) rfl x) a
  · split_ifs
    · decide
    · exact lanes_pos iw64 _
  · unfold Cfg.avxOnly1 Cfg.fast Cfg.hasInt
    rcases fastF_cases h with ⟨h1, h2, h3, e⟩ | ⟨h1, h2, h3, e⟩ | ⟨h1, h2, h3, e⟩ | ⟨h1, h2, h3, e⟩ <;> simp [h1, h2, h3, Reg.lanes, Reg.bits]

/-- Where the conversion of 64-bit integers exists: AVX512DQ (and VL for the narrower registers), and every build but x86. -/
def Cfg.has64f (c : Cfg) (r : Reg) : Prop := c.sse2 = true → c.avx512dq = true ∧ (r ≠ .r512 → c.avx512vl = true)

theorem i_i64f64_eq (sg : Bool) (hN : c.FLen 64 N) (hd : c.has64f (c.regF 64 N)) (a : Vec 64 N) :
    i_i64f64 c sg a = some (fun i => Hw.i2f sg 64 (a i)) := by
  unfold i_i64f64
  split_ifs with h4 h8 h16
  · rw [show c.regF 64 N = .r128 by rw [h4]; exact regF_128 c (.inr rfl)] at hd
    exact i64f64_eq h sg (r := .r128) rfl hd a
  · rw [show c.regF 64 N = .r256 by rw [h8.2]; exact regF_256 c (.inr rfl) h8.1] at hd
    exact i64f64_eq h sg (r := .r256) h8.1 hd a
  · rw [show c.regF 64 N = .r512 by rw [h16.2]; exact regF_512 c (.inr rfl) h16.1] at hd
    exact i64f64_eq h sg (r := .r512) h16.1 hd a
  all_goals
    obtain ⟨e, K, hK⟩ := FLen.multi hN h4 h8 h16
    rw [e] at hd
    dsimp only
    rw [e]
    have hNK : N / c.fastF.lanes 64 = K := by rw [hK, Nat.mul_div_cancel _ (lanes_pos iw64 _)]
    rw [hNK]
    refine convDown_eq ?_ ?_ (lanes_pos iw64 _) hK (fun x => i64f64_eq h sg (fastF_has c 64) hd x) a
    · first | decide | exact lanes_pos iw64 _
    · unfold Cfg.avxOnly1 at *
      rcases fastF_cases h with ⟨h1, h2, h3, e⟩ | ⟨h1, h2, h3, e⟩ | ⟨h1, h2, h3, e⟩ | ⟨h1, h2, h3, e⟩ <;> rw [e] <;> simp_all [Reg.lanes, Reg.bits]

theorem i_f32f64_eq (hN : c.FLen 32 N) (a : Vec 32 N) : i_f32f64 c a = some (fun i => Fp.conv 64 (a i)) := by
  unfold i_f32f64
  by_cases h4 : N = 4
  · rw [if_pos h4]; exact f32f64_eq h (r := .r128) rfl h4 a
  rw [if_neg h4]
  by_cases h8 : c.avx = true ∧ N = 8
  · rw [if_pos h8]; exact f32f64_eq h (r := .r256) h8.1 h8.2 a
  rw [if_neg h8]
  by_cases h16 : c.avx512f = true ∧ N = 16
  · rw [if_pos h16]; exact f32f64_eq h (r := .r512) h16.1 h16.2 a
  rw [if_neg h16]
  obtain ⟨e, K, hK⟩ := FLen.multi hN h4 h8 h16
  dsimp only
  rw [e]
  have hNK : N / c.fastF.lanes 32 = K := by rw [hK, Nat.mul_div_cancel _ (lanes_pos iw32 _)]
  rw [hNK]
  refine convUp_eq (lanes_pos iw64 _) ?_ (lanes_pos iw32 _) hK (fun x => f32f64_eq h (fastF_has c 32) rfl x) a
  cases c.fastF <;> decide

theorem i_f64f32_eq (hN : c.FLen 32 N) (hv : c.vsx206 = false) (hm : c.msa = false) (a : Vec 64 N) :
    i_f64f32 c a = some (fun i => f64f32lane c (c.regF 32 N) (a i)) := by
  unfold i_f64f32
  split_ifs with h4 h8 h16
  · rw [f64f32_eq h (r := .r128) rfl hv hm, show c.regF 32 N = .r128 by rw [h4]; exact regF_128 c (.inl rfl)]
  · rw [f64f32_eq h (r := .r256) h8.1 hv hm, show c.regF 32 N = .r256 by rw [h8.2]; exact regF_256 c (.inl rfl) h8.1]
  · rw [f64f32_eq h (r := .r512) h16.1 hv hm, show c.regF 32 N = .r512 by rw [h16.2]; exact regF_512 c (.inl rfl) h16.1]
  · obtain ⟨e, K, hK⟩ := FLen.multi hN h4 h8 h16
    dsimp only
    rw [e]
    have hNK : N / c.fastF.lanes 32 = K := by rw [hK, Nat.mul_div_cancel _ (lanes_pos iw32 _)]
    rw [hNK]
    refine convDown_eq (lanes_pos iw64 _) ?_ (lanes_pos iw32 _) hK (fun x => f64f32_eq h (fastF_has c 32) hv hm x) a
    cases c.fastF <;> decide

end

/-! ## C46 -/

/-- C46: 32-bit integers become the same number in double precision, on every build and for every length. -/
theorem C46_int32_to_float64 {c : Cfg} (h : c.Ok) (sg : Bool) (hN : c.VLen 32 N) (a : Vec 32 N) :
    ∃ r, i_i32f64 c sg a = some r ∧ ∀ i, Fp.isFinite (r i) = true ∧ Fp.num (r i) = val sg (a i) * 2 ^ 1074 :=
  ⟨_, i_i32f64_eq h sg hN a, fun i => ⟨(i2f64_exact sg (a i)).1, (i2f64_exact sg (a i)).2⟩⟩

/-- C46: so do 8-bit and 16-bit integers. -/
theorem C46_narrow_to_float64 {c : Cfg} (h : c.Ok) (sg : Bool) (hw : w = 8 ∨ w = 16) (hN : c.VLen w N) (hN' : c.VLen 32 N) (a : Vec w N) :
    ∃ r, i_narrow_f64 c sg w a = some r ∧ ∀ i, Fp.isFinite (r i) = true ∧ Fp.num (r i) = val sg (a i) * 2 ^ 1074 := by
  unfold i_narrow_f64
  rcases hw with e | e <;> subst e
  · rw [dif_pos rfl, i_ext8_32_eq h sg hN, Option.bind_some]
    refine ⟨_, i_i32f64_eq h sg hN' _, fun i => ?_⟩
    have := i2f64_exact sg (extOf sg 32 a i)
    unfold extOf at this
    rw [val_ext (by decide) (by decide)] at this
    exact ⟨this.1, this.2⟩
  · rw [dif_neg (by decide), dif_pos rfl, i_ext16_32_eq h sg hN, Option.bind_some]
    refine ⟨_, i_i32f64_eq h sg hN' _, fun i => ?_⟩
    have := i2f64_exact sg (extOf sg 32 a i)
    unfold extOf at this
    rw [val_ext (by decide) (by decide)] at this
    exact ⟨this.1, this.2⟩

/-- C46: 8-bit and 16-bit integers become the same number in single precision. -/
theorem C46_narrow_to_float32 {c : Cfg} (h : c.Ok) (sg : Bool) (hw : w = 8 ∨ w = 16) (hN : c.VLen w N) (a : Vec w N) :
    ∃ r, i_narrow_f32 c sg w a = some r ∧ ∀ i, Fp.isFinite (r i) = true ∧ Fp.num (r i) = val sg (a i) * 2 ^ 149 := by
  have key : ∀ x : BitVec 32, (val sg x).natAbs < 2 ^ 24 → (sg = false → val true x = val false x) →
      Fp.isFinite (i32f32lane c sg (c.regF 32 N) x) = true ∧ Fp.num (i32f32lane c sg (c.regF 32 N) x) = val sg x * 2 ^ 149 := by
    intro x hx hs
    have e : i32f32lane c sg (c.regF 32 N) x = Hw.i2f sg 32 x := by
      unfold i32f32lane
      split_ifs with g
      · rw [g.1, u32lane_low (by rw [hs g.1]; unfold val; simp)]
      · rfl
    rw [e]
    have := ofInt_exact32 (z := val sg x) (s := (val sg x).natAbs) (q := 0) (by simp) hx (by decide)
    unfold Hw.i2f
    exact ⟨this.1, this.2⟩
  have small : ∀ {w : Nat} (hw : w = 8 ∨ w = 16) (x : BitVec w),
      (val sg x).natAbs < 2 ^ 24 ∧ (sg = false → val true (Hw.extLane sg 32 x) = val false (Hw.extLane sg 32 x)) := by
    intro w hw x
    constructor
    · have h1 := (val_mem sg (by omega) x)
      rcases hw with e | e <;> subst e <;> cases sg <;> simp [lo, hi] at h1 <;> omega
    · intro e; subst e
      have hlt : (Hw.extLane false 32 x).toNat < 2 ^ 16 := by
        unfold Hw.extLane
        simp
        have := x.isLt
        rcases hw with e | e <;> subst e <;> omega
      unfold val
      simp only [if_true, Bool.false_eq_true, if_false]
      rw [BitVec.toInt_eq_toNat_cond, if_pos (by omega)]
  have hF := FLen.of_VLen h hw hN
  unfold i_narrow_f32
  rcases hw with e | e <;> subst e
  · rw [dif_pos rfl, i_ext8_32_eq h sg hN, Option.bind_some]
    refine ⟨_, i_i32f32_eq h sg hF _, fun i => ?_⟩
    obtain ⟨s1, s2⟩ := small (.inl rfl) (a i)
    have := key (extOf sg 32 a i) (by unfold extOf; rw [val_ext (by decide) (by decide)]; exact s1) s2
    unfold extOf at this
    rw [val_ext (by decide) (by decide)] at this
    exact this
  · rw [dif_neg (by decide), dif_pos rfl, i_ext16_32_eq h sg hN, Option.bind_some]
    refine ⟨_, i_i32f32_eq h sg hF _, fun i => ?_⟩
    obtain ⟨s1, s2⟩ := small (.inr rfl) (a i)
    have := key (extOf sg 32 a i) (by unfold extOf; rw [val_ext (by decide) (by decide)]; exact s1) s2
    unfold extOf at this
    rw [val_ext (by decide) (by decide)] at this
    exact this

/-- C46: a signed 32-bit integer becomes the nearest `float`, ties to even, on every build and for every length. -/
theorem C46_int32_to_float32 {c : Cfg} (h : c.Ok) (hN : c.FLen 32 N) (a : Vec 32 N) :
    ∃ r, i_i32f32 c true a = some r ∧ ∀ i, r i = Fp.ofInt 32 (val true (a i)) := by
  refine ⟨_, i_i32f32_eq h true hN a, fun i => ?_⟩
  unfold i32f32lane
  rw [if_neg (by simp)]
  unfold Hw.i2f; rfl

/-- C46: an unsigned 32-bit integer becomes the nearest `float` wherever the conversion is not emulated with the signed one (x86 before
AVX-512, and vectors of four lanes on every x86 build); with the emulation it does when the integer is below `2 ^ 31` or its
distance to `2 ^ 32` is a number with 24 digits. -/
theorem C46_uint32_to_float32_partial {c : Cfg} (h : c.Ok) (hN : c.FLen 32 N) (a : Vec 32 N) :
    ∃ r, i_i32f32 c false a = some r ∧ ∀ i,
      (c.sse2 = false ∨ (c.avx512f = true ∧ N ≠ 4) ∨ val false (a i) < 2 ^ 31 ∨
        ∃ s q : Nat, 2 ^ 32 - val false (a i) = s * 2 ^ q ∧ s < 2 ^ 24) →
      r i = Fp.ofInt 32 (val false (a i)) := by
  refine ⟨_, i_i32f32_eq h false hN a, fun i hi => ?_⟩
  unfold i32f32lane
  have hv := val_unsigned (a i)
  split_ifs with g
  · obtain ⟨-, g⟩ := g
    have g2 : c.sse2 = true ∧ (c.regF 32 N = .r128 ∨ (c.regF 32 N = .r256 ∧ c.avx512f = false)) := by
      unfold Cfg.emuU at g; simpa using g
    by_cases hn : val true (a i) < 0
    · rw [if_pos hn] at hv
      rcases hi with hi | hi | hi | ⟨s, q, e, hs⟩
      · rw [g2.1] at hi; cases hi
      · exfalso
        rcases g2.2 with e | ⟨-, e⟩
        · rcases hN with ⟨r, hr, eN⟩ | ⟨K, hK, eN⟩
          · cases r
            · exact hi.2 eN
            · rw [eN, regF_256 c (.inl rfl) hr] at e; cases e
            · rw [eN, regF_512 c (.inl rfl) hr] at e; cases e
          · rcases fastF_cases h with ⟨-, -, h3, -⟩ | ⟨-, -, h3, -⟩ | ⟨-, -, h3, -⟩ | ⟨-, -, -, h4⟩
            · rw [hi.1] at h3; cases h3
            · rw [hi.1] at h3; cases h3
            · rw [hi.1] at h3; cases h3
            · unfold Cfg.regF at e
              rw [h4] at eN e
              have e1 : Reg.r512.lanes 32 = 16 := rfl
              have e2 : Reg.r128.lanes 32 = 4 := rfl
              rw [e1] at eN
              rw [e2, if_neg hi.2] at e
              split_ifs at e
        · rw [hi.1] at e; cases e
      · have := (val_natAbs true (a i)).2 rfl
        exfalso
        omega
      · have e' : (val true (a i)).natAbs = s * 2 ^ q := by
          have : ((val true (a i)).natAbs : Int) = s * 2 ^ q := by rw [← e, hv]; omega
          exact_mod_cast this
        have hq : q ≤ 104 := by
          by_contra hq
          have h1 := (val_natAbs true (a i)).1
          have hs0 : 0 < s := by
            rcases Nat.eq_zero_or_pos s with g | g
            · subst g; omega
            · exact g
          have h2 : 2 ^ 32 ≤ 2 ^ q := Nat.pow_le_pow_right (by decide) (by omega)
          have h3 : 1 * 2 ^ q ≤ s * 2 ^ q := Nat.mul_le_mul_right _ hs0
          omega
        rw [u32lane_high hn e' hs hq]
        unfold Hw.i2f; rfl
    · rw [u32lane_low (by omega)]
      unfold Hw.i2f; rfl
  · unfold Hw.i2f; rfl

/-- C46: on every build the unsigned conversion is off by at most 192, less than the distance of adjacent numbers there (256): the
emulation may round twice, but never skips a number. -/
theorem C46_uint32_to_float32_err {c : Cfg} (h : c.Ok) (hN : c.FLen 32 N) (a : Vec 32 N) :
    ∃ r, i_i32f32 c false a = some r ∧ ∀ i, Fp.isFinite (r i) = true ∧
      |Fp.num (r i) - val false (a i) * 2 ^ 149| ≤ 192 * 2 ^ 149 := by
  refine ⟨_, i_i32f32_eq h false hN a, fun i => ?_⟩
  have direct : Fp.isFinite (Hw.i2f false 32 (a i) : BitVec 32) = true ∧
      |Fp.num (Hw.i2f false 32 (a i) : BitVec 32) - val false (a i) * 2 ^ 149| ≤ 192 * 2 ^ 149 := by
    have hf := i2f32_finite false (a i)
    refine ⟨hf, ?_⟩
    have hn : ((2 : Int) ^ unit 32).natAbs = 2 ^ 149 := by rw [Int.natAbs_pow]; rfl
    have e : (Hw.i2f false 32 (a i) : BitVec 32) = Fp.round 32 0 (val false (a i) * 2 ^ unit 32) := by
      unfold Hw.i2f Fp.ofInt; rfl
    have := round_err fw32 (k := 0) (L := 181) (z := val false (a i) * 2 ^ unit 32) (by rw [← e]; exact hf) (by
      rw [Int.natAbs_mul, hn, show 181 = 32 + 149 from rfl, pow_add]
      exact Nat.mul_lt_mul_of_pos_right (val_natAbs false (a i)).1 (by positivity)) (by decide)
    rw [pow_zero, Int.mul_one, show 181 - prec 32 = 157 from rfl, unit_scale 157 8 rfl, ← e] at this
    have hU : (0 : Int) < 2 ^ 149 := by positivity
    change |_ - val false (a i) * 2 ^ unit 32| ≤ 192 * 2 ^ unit 32
    change (0 : Int) < 2 ^ unit 32 at hU
    generalize (2 : Int) ^ unit 32 = U at *
    omega
  unfold i32f32lane
  split_ifs with g
  · by_cases hn : val true (a i) < 0
    · exact u32lane_err hn
    · rw [u32lane_low (by omega)]; exact direct
  · exact direct

/-- C46, rejected reading: with the emulation (here SSE2) the result is not always the nearest `float`; the portable build and AVX-512
differ from it. -/
theorem C46_uint32_double_rounding :
    i_i32f32 Cfg.sse2Only false (Vec.splat 0xca520962#32 : Vec 32 4) = some (Vec.splat 0x4f4a520a#32) ∧
    i_i32f32 Cfg.portable false (Vec.splat 0xca520962#32 : Vec 32 4) = some (Vec.splat 0x4f4a5209#32) := by
  constructor
  · rw [i_i32f32_eq (N := 4) Cfg.sse2Only_ok false (.inl ⟨.r128, rfl, rfl⟩)]
    refine congrArg some (funext fun i => ?_)
    revert i; decide +kernel
  · rw [i_i32f32_eq (N := 4) Cfg.portable_ok false (.inl ⟨.r128, rfl, rfl⟩)]
    refine congrArg some (funext fun i => ?_)
    revert i; decide +kernel

/-- C46: `float` to `double` keeps every number, infinities with their sign, zeros with their sign, and NaN. -/
theorem C46_float_to_double {c : Cfg} (h : c.Ok) (hN : c.FLen 32 N) (a : Vec 32 N) :
    ∃ r, i_f32f64 c a = some r ∧ ∀ i,
      (Fp.isFinite (a i) = true → Fp.isFinite (r i) = true ∧ Fp.num (r i) = Fp.num (a i) * 2 ^ 925) ∧
      (Flt.isNaN (a i) = false → (r i).msb = (a i).msb) ∧
      Fp.isInf (r i) = Fp.isInf (a i) ∧ Flt.isNaN (r i) = Flt.isNaN (a i) := by
  refine ⟨_, i_f32f64_eq h hN a, fun i => ?_⟩
  generalize a i = x
  refine ⟨fun hf => conv64_exact hf, fun hnan => ?_, ?_⟩
  · unfold Fp.conv
    simp only [hnan, Bool.false_eq_true, if_false]
    split_ifs with h1 h2 h3
    · exact mk_msb fw64 (by decide)
    · exact mk_msb fw64 (by decide)
    · rw [round_msb fw64]
      have hU : (0 : Int) < 2 ^ (unit 64 - unit 32) := by positivity
      cases hs : x.msb
      · have h0 := num_nonneg_of hs
        have := Int.mul_nonneg h0 (Int.le_of_lt hU)
        exact decide_eq_false (by omega)
      · have h0 := num_nonpos_of hs
        have : num x * 2 ^ (unit 64 - unit 32) < 0 := Int.mul_neg_of_neg_of_pos (by omega) hU
        exact decide_eq_true this
    · exact absurd (by decide) h3
  · rcases finite_or x with g | g | g
    · have e : Fp.conv 64 x = nan 64 := by unfold Fp.conv; rw [if_pos g]
      rw [e]
      have : isInf x = false := by
        unfold isInf; unfold isNaN at g
        have := of_decide_eq_true g
        exact decide_eq_false (by omega)
      rw [g, this]; exact ⟨by decide, by decide⟩
    · have hn : isNaN x = false := by
        unfold isNaN; unfold isInf at g
        have := of_decide_eq_true g
        exact decide_eq_false (by omega)
      have e : Fp.conv 64 x = mk 64 x.msb (infBits 64) := by unfold Fp.conv; simp [hn, g]
      rw [e, g, hn]
      unfold isInf isNaN
      rw [mk_mag fw64 (infBits_lt fw64)]
      exact ⟨by decide, by decide⟩
    · have h1 := not_nan_of_finite g
      have h2 := not_nan_of_finite (conv64_exact g).1
      rw [h1.1, h1.2, h2.1, h2.2]; exact ⟨rfl, rfl⟩

/-- C46: `double` to `float` gives the nearest `float` (ties to even; NaN, infinities and signed zeros kept; overflow to infinity) on every
build but three: AVX-512 with more than four lanes, MSA, and little-endian VSX (`C46_double_to_float_vsx`). -/
theorem C46_double_to_float_partial {c : Cfg} (h : c.Ok) (hN : c.FLen 32 N) (hv : c.vsx206 = false) (hm : c.msa = false)
    (hx : c.avx512f = false ∨ N = 4) (a : Vec 64 N) :
    ∃ r, i_f64f32 c a = some r ∧ ∀ i, r i = Fp.conv 32 (a i) := by
  refine ⟨_, i_f64f32_eq h hN hv hm a, fun i => ?_⟩
  unfold f64f32lane
  rw [if_neg]
  rintro ⟨g1, g2⟩
  rcases hx with g | g
  · rw [g] at g1; cases g1
  · exact g2 (by rw [g]; exact regF_128 c (.inl rfl))

/-- What the specification of the conversion means on finite numbers: nearest, ties to even. -/
theorem C46_double_to_float_nearest (x : BitVec 64) (hf : Fp.isFinite x = true) (hr : Fp.isFinite (Fp.conv 32 x) = true)
    (y : BitVec 32) (hy : Fp.isFinite y = true) :
    |Fp.num (Fp.conv 32 x) * 2 ^ 925 - Fp.num x| ≤ |Fp.num y * 2 ^ 925 - Fp.num x| ∧
    (Fp.num y ≠ Fp.num (Fp.conv 32 x) → |Fp.num (Fp.conv 32 x) * 2 ^ 925 - Fp.num x| = |Fp.num y * 2 ^ 925 - Fp.num x| →
      (Fp.conv 32 x).toNat % 2 = 0) := by
  obtain ⟨nx, ix⟩ := not_nan_of_finite hf
  by_cases h0 : Fp.num x = 0
  · have e : Fp.conv 32 x = mk 32 x.msb 0 := by unfold Fp.conv; simp [nx, ix, h0]
    rw [e, h0, (finite_zero fw32 _).2]
    refine ⟨by simp, fun hne he => ?_⟩
    exfalso
    simp only [Int.zero_mul, sub_zero, abs_zero] at he
    have := abs_eq_zero.1 he.symm
    rcases Int.mul_eq_zero.1 this with g | g
    · exact hne g
    · have : (0 : Int) < 2 ^ 925 := by positivity
      omega
  · have e : Fp.conv 32 x = Fp.round 32 925 (Fp.num x) := by
      unfold Fp.conv
      simp only [nx, ix, h0, Bool.false_eq_true, if_false]
      rw [if_neg (by decide)]
      rfl
    rw [e] at hr ⊢
    exact C46_round_nearest (.inl rfl) 925 (Fp.num x) hr y hy

/-- C46, finding: on AVX-512 with eight or more lanes the conversion rounds towards zero instead. -/
theorem C46_double_to_float_avx512 {c : Cfg} (h : c.Ok) (hf : c.avx512f = true) (hN : c.FLen 32 N) (hN4 : N ≠ 4) (a : Vec 64 N) :
    ∃ r, i_f64f32 c a = some r ∧ ∀ i, r i = Hw.convZ 32 (a i) := by
  have hv : c.vsx206 = false := by by_contra g; cfg_absurd h
  have hm : c.msa = false := by by_contra g; cfg_absurd h
  refine ⟨_, i_f64f32_eq h hN hv hm a, fun i => ?_⟩
  unfold f64f32lane
  rw [if_pos]
  refine ⟨hf, fun e => ?_⟩
  rcases hN with ⟨r, hr, eN⟩ | ⟨K, hK, eN⟩
  · cases r
    · exact hN4 eN
    · rw [eN, regF_256 c (.inl rfl) hr] at e; cases e
    · rw [eN, regF_512 c (.inl rfl) hr] at e; cases e
  · have h4 : c.fastF = .r512 := by unfold Cfg.fastF; rw [if_pos hf]
    unfold Cfg.regF at e
    have e2 : Reg.r128.lanes 32 = 4 := rfl
    rw [h4, e2, if_neg hN4] at e
    split_ifs at e

/-- 0.1 (in double precision) to `float`: nearest and towards zero differ, so the result depends on the number of lanes. -/
theorem C46_double_to_float_depends_on_length :
    i_f64f32 Cfg.avx512All (Vec.splat 0x3fb999999999999a#64 : Vec 64 4) = some (Vec.splat 0x3dcccccd#32) ∧
    i_f64f32 Cfg.avx512All (Vec.splat 0x3fb999999999999a#64 : Vec 64 8) = some (Vec.splat 0x3dcccccc#32) := by
  constructor
  · rw [i_f64f32_eq (N := 4) Cfg.avx512All_ok (.inl ⟨.r128, rfl, rfl⟩) rfl rfl]
    refine congrArg some (funext fun i => ?_)
    revert i; decide +kernel
  · rw [i_f64f32_eq (N := 8) Cfg.avx512All_ok (.inl ⟨.r256, rfl, rfl⟩) rfl rfl]
    refine congrArg some (funext fun i => ?_)
    revert i; decide +kernel

/-- C46, finding: MSA `fexdo.w` puts its first operand in the upper half, the call passes the halves the other way round. -/
theorem C46_double_to_float_msa_swapped {c : Cfg} (h : c.Ok) (hm : c.msa = true) (a : Vec 64 4) :
    i_f64f32 c a = some (fun i => Fp.conv 32 (a (i + 2))) := by
  unfold i_f64f32 f64f32
  rw [if_pos rfl]
  dsimp only
  rw [if_neg (by intro g; cfg_absurd h), if_neg (by intro g; cfg_absurd h), if_neg (by intro g; cfg_absurd h),
    if_neg (by intro g; cfg_absurd h), if_pos hm]
  refine catM_of (by decide) fun p hp => ⟨_, rfl, fun j hj hlt => ?_⟩
  rw [Vec.at_lt _ hlt, Vec.at_lt _ hj]
  have : p = 0 ∨ p = 1 := by omega
  have : j = 0 ∨ j = 1 := by omega
  rcases ‹p = 0 ∨ p = 1› with rfl | rfl <;> rcases ‹j = 0 ∨ j = 1› with rfl | rfl <;>
    exact congrArg (fun i => Fp.conv 32 (a i)) (Fin.ext (by decide +revert))

/-- C46: 64-bit integers become the nearest `double`, ties to even, wherever the conversion exists. -/
theorem C46_int64_to_float64 {c : Cfg} (h : c.Ok) (sg : Bool) (hN : c.FLen 64 N) (hd : c.has64f (c.regF 64 N)) (a : Vec 64 N) :
    ∃ r, i_i64f64 c sg a = some r ∧ ∀ i, r i = Fp.ofInt 64 (val sg (a i)) := by
  refine ⟨_, i_i64f64_eq h sg hN hd a, fun i => ?_⟩
  unfold Hw.i2f; rfl

/-- It does not exist on x86 before AVX512DQ. -/
theorem C46_int64_to_float64_missing {c : Cfg} (h : c.Ok) (hx : c.sse2 = true) (hd : c.avx512dq = false) (sg : Bool) (a : Vec 64 2) :
    i_i64f64 c sg a = none := by
  unfold i_i64f64 i64f64
  rw [if_pos rfl]
  dsimp only
  split_ifs <;> first | rfl | cfg_absurd h

/-- C46, 64-bit integers to `float`: one rounding on the portable build with four lanes and on AVX512DQ, two (through `double`)
everywhere else. -/
theorem C46_int64_to_float32 {c : Cfg} (h : c.Ok) (hv : c.vsx206 = false) (hm : c.msa = false) (hx : c.sse2 = false) (sg : Bool)
    (hN : c.FLen 32 N) (a : Vec 64 N) :
    ∃ r, i_i64f32 c sg a = some r ∧ ∀ i,
      r i = if c.null = true ∧ N = 4 then Fp.ofInt 32 (val sg (a i)) else Fp.conv 32 (Fp.ofInt 64 (val sg (a i))) := by
  have hl : c.avx = false ∧ c.avx2 = false ∧ c.avx512f = false ∧ c.fastF = .r128 := by
    rcases fastF_cases h with g | g | g | g
    · exact g
    all_goals (exfalso; have g1 := g.1; have := h.sse3 (h.ssse3 (h.sse41 (h.avx g1))); rw [hx] at this; cases this)
  have hvl : c.avx512vl = false := by
    cases g : c.avx512vl
    · rfl
    · have := h.avx512vl g; rw [hl.2.2.1] at this; cases this
  have two : ∀ (a : Vec 64 N), ((i_i64f64 c sg a).bind (i_f64f32 c)) =
      some (fun i => Fp.conv 32 (Fp.ofInt 64 (val sg (a i)))) := by
    intro a
    have hF : c.FLen 64 N := by
      have hd : 4 ∣ N := by
        rcases hN with ⟨r, hr, eN⟩ | ⟨K, hK, eN⟩
        · subst eN; cases r <;> decide
        · rw [eN, hl.2.2.2]; exact Dvd.dvd.mul_left (by decide) K
      have h0 : 0 < N := by
        rcases hN with ⟨r, hr, eN⟩ | ⟨K, hK, eN⟩
        · subst eN; cases r <;> decide
        · rw [eN]; exact Nat.mul_pos (by omega) (lanes_pos iw32 _)
      exact FLen.of_dvd h0 (by rw [hl.2.2.2]; exact Dvd.dvd.trans (by decide) hd)
    rw [i_i64f64_eq h sg hF (fun g => by rw [hx] at g; cases g), Option.bind_some, i_f64f32_eq h hN hv hm]
    congr 1
    funext i
    unfold f64f32lane
    rw [if_neg (by rw [hl.2.2.1]; simp)]
    unfold Hw.i2f; rfl
  unfold i_i64f32
  by_cases h4 : N = 4
  · rw [if_pos h4]
    by_cases hn : c.null = true
    · rw [if_pos hn]
      refine ⟨_, rfl, fun i => ?_⟩
      rw [if_pos ⟨hn, h4⟩]
      unfold Vec.map Hw.i2f; rfl
    · rw [if_neg hn, if_neg (by rw [hvl]; simp), two]
      exact ⟨_, rfl, fun i => by rw [if_neg (by simp [hn])]⟩
  · rw [if_neg h4, if_neg (by rw [hl.1]; simp), if_neg (by rw [hl.2.2.1]; simp), two]
    exact ⟨_, rfl, fun i => by rw [if_neg (by simp [h4])]⟩

/-- C46, finding: two roundings are not one. On the portable build the lane `2^60 + 2^36 + 1` gives different `float`s in a vector of four
and in a vector of eight lanes. -/
theorem C46_int64_double_rounding :
    Fp.ofInt 32 (2 ^ 60 + 2 ^ 36 + 1) ≠ Fp.conv 32 (Fp.ofInt 64 (2 ^ 60 + 2 ^ 36 + 1)) ∧
    (∀ z : Int, z.natAbs < 2 ^ 53 → Fp.num (Fp.ofInt 64 z) = z * 2 ^ 1074) := by
  refine ⟨by decide +kernel, fun z hz => ?_⟩
  have := (ofInt_small64 hz).2
  exact this

-- the hypotheses on concrete builds
example : Cfg.avxOnly.FLen 32 8 ∧ Cfg.avxOnly.FLen 32 24 ∧ Cfg.avx512All.FLen 64 8 ∧ Cfg.portable.FLen 32 4 :=
  ⟨.inl ⟨.r256, rfl, rfl⟩, .inr ⟨3, by decide, rfl⟩, .inl ⟨.r512, rfl, rfl⟩, .inl ⟨.r128, rfl, rfl⟩⟩
example : Cfg.avx512All.has64f .r128 ∧ Cfg.portable.has64f .r128 := ⟨fun _ => ⟨rfl, fun _ => rfl⟩, fun g => by cases g⟩
example : i_i32f32 Cfg.sse2Only false (fun i => [3, 0x80000000#32, 0xffffff00#32, 0].getD i.val 0 : Vec 32 4) =
    some (fun i => [0x40400000#32, 0x4f000000#32, 0x4f7fffff#32, 0].getD i.val 0) := by
  rw [i_i32f32_eq (N := 4) Cfg.sse2Only_ok false (.inl ⟨.r128, rfl, rfl⟩)]
  refine congrArg some (funext fun i => ?_)
  revert i; decide +kernel

end Simdpp
