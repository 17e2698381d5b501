import Verif.Props.ConvTrunc
import Verif.Props.Samples

/-!
# C29: integer conversions

`to_int8/16/32/64` and `to_uint8/16/32/64`: extension preserves the value of every lane, truncation keeps the low bits.
Five combinations of configuration, widths and length are wrong in the code; they are excluded from the main theorem by
`ConvBroken` and shown to be wrong below.
-/

namespace Simdpp
open Sh Spec

variable {w v n N : Nat}

/-- The combinations for which the code does not convert correctly:
AVX-512F without AVX-512BW, beyond what one call of the single-register overload covers (16 to 64, 8 to 64, 32 to 8 and
64 to 8 bits), and AVX2 without AVX-512F, 32 to 8 bits, more than 16 lanes. -/
def ConvBroken (c : Cfg) (w v N : Nat) : Prop :=
  (c.avx512f = true ∧ c.avx512bw = false ∧
    ((w = 16 ∧ v = 64 ∧ 32 < N) ∨ (w = 8 ∧ v = 64 ∧ 64 < N) ∨ (w = 32 ∧ v = 8 ∧ 32 < N) ∨ (w = 64 ∧ v = 8 ∧ 32 < N))) ∨
  (c.avx2 = true ∧ c.avx512f = false ∧ w = 32 ∧ v = 8 ∧ N ≠ 16)

theorem val_ext {sg : Bool} (hw : 0 < w) (hwv : w ≤ v) (x : BitVec w) : val sg (Hw.extLane sg v x) = val sg x := by
  cases sg
  · simp only [val, Hw.extLane, Bool.false_eq_true, if_false, BitVec.toNat_setWidth]
    rw [Nat.mod_eq_of_lt (Nat.lt_of_lt_of_le x.isLt (Nat.pow_le_pow_right (by decide) hwv))]
  · simp only [val, Hw.extLane, if_true]
    exact BitVec.toInt_signExtend_of_le hwv

section
variable {c : Cfg} (h : c.Ok)
include h

theorem to_int_cases (sg : Bool) (hw : IsW w) (hv : IsW v) (hN : c.VLen (min w v) N) (hx : ¬ ConvBroken c w v N) (a : Vec w N) :
    (w ≤ v → to_int c sg w v a = some (extOf sg v a)) ∧ (v ≤ w → to_int c sg w v a = some (trOf v a)) := by
  have hself : ∀ {u : Nat} (x : Vec u N), to_int c sg u u x = some x := fun x => dif_pos rfl
  have e1 : ∀ {u : Nat} (x : Vec u N), extOf sg u x = x := fun x => by
    funext i; cases sg <;> simp [extOf, Hw.extLane]
  have e2 : ∀ {u : Nat} (x : Vec u N), trOf u x = x := fun x => by funext i; simp [trOf]
  have hbw : ∀ {P : Prop}, ¬ (c.avx512f = true ∧ c.avx512bw = false ∧ P) → c.avx512f = true → c.avx512bw = false → ¬ P :=
    fun g a b p => g ⟨a, b, p⟩
  unfold ConvBroken at hx
  rw [not_or] at hx
  obtain ⟨hx1, hx2⟩ := hx
  rcases hw with e | e | e | e <;> subst e <;> rcases hv with e | e | e | e <;> subst e <;>
    refine ⟨fun hle => ?_, fun hle => ?_⟩ <;>
    first
    | (exfalso; revert hle; decide)
    | (rw [hself, e1]; done)
    | (rw [hself, e2]; done)
    | exact i_ext8_16_eq h sg hN a
    | exact i_ext16_32_eq h sg hN a
    | exact i_ext32_64_eq h sg hN a
    | exact i_ext8_32_eq h sg hN a
    | exact i_ext16_64_eq h sg hN (fun hh => by have := hbw hx1 hh.1 (by simpa using hh.2); omega) a
    | exact i_ext8_64_eq h sg hN (fun hh => by have := hbw hx1 hh.1 (by simpa using hh.2); omega) a
    | exact i_trunc16_8_eq h hN a
    | exact i_trunc32_16_eq h hN a
    | exact i_trunc64_32_eq h hN a
    | exact i_trunc64_16_eq h hN a
    | exact i_trunc64_8_eq h hN (fun g1 g2 => by have := hbw hx1 g1 g2; omega) a
    | exact i_trunc32_8_eq h hN (fun g1 g2 => by
        by_contra g3; exact hx2 ⟨g1, g2, rfl, rfl, g3⟩) (fun g1 g2 => by have := hbw hx1 g1 g2; omega) a

/-- C29 (extension): `to_intV(a)` / `to_uintV(a)` of narrower or equally wide lanes has, in every lane, the value of the
lane of `a` (read with the signedness of `a`). -/
theorem C29_extend_partial (sg : Bool) (hw : IsW w) (hv : IsW v) (hwv : w ≤ v) (hN : c.VLen w N) (hx : ¬ ConvBroken c w v N)
    (a : Vec w N) : ∃ res, to_int c sg w v a = some res ∧ ∀ i, val sg (res i) = val sg (a i) :=
  ⟨_, (to_int_cases h sg hw hv (by rwa [Nat.min_eq_left hwv]) hx a).1 hwv, fun i => val_ext (isW_pos hw) hwv (a i)⟩

/-- C29 (truncation): `to_intV(a)` / `to_uintV(a)` of wider or equally wide lanes keeps in every lane the value of the lane
of `a` modulo `2^V`, whatever the signedness. -/
theorem C29_truncate_partial (sg : Bool) (hw : IsW w) (hv : IsW v) (hwv : v ≤ w) (hN : c.VLen v N)
    (hx : ¬ ConvBroken c w v N) (a : Vec w N) :
    ∃ res, to_int c sg w v a = some res ∧ ∀ i, (res i).toNat = (a i).toNat % 2 ^ v :=
  ⟨_, (to_int_cases h sg hw hv (by rwa [Nat.min_eq_right hwv]) hx a).2 hwv, fun i => by simp [trOf]⟩

/-- C29 (round trip): widening and then narrowing gives the vector back. -/
theorem C29_roundtrip_partial (sg sg' : Bool) (hw : IsW w) (hv : IsW v) (hwv : w ≤ v) (hN : c.VLen w N)
    (hx : ¬ ConvBroken c w v N) (hy : ¬ ConvBroken c v w N) (a : Vec w N) :
    ∃ res, to_int c sg w v a = some res ∧ to_int c sg' v w res = some a := by
  refine ⟨_, (to_int_cases h sg hw hv (by rwa [Nat.min_eq_left hwv]) hx a).1 hwv, ?_⟩
  rw [(to_int_cases h sg' hv hw (by rwa [Nat.min_eq_right hwv]) hy _).2 hwv]
  refine congrArg some (funext fun i => ?_)
  apply (val_inj sg).1
  unfold trOf extOf Hw.extLane
  cases sg
  · simp only [Bool.false_eq_true, if_false]
    rw [BitVec.setWidth_setWidth_of_le _ hwv, BitVec.setWidth_eq]
  · simp only [if_true]
    refine congrArg _ (BitVec.eq_of_getLsbD_eq fun k hk => ?_)
    rw [BitVec.getLsbD_setWidth, BitVec.getLsbD_signExtend]
    simp [hk, show k < v by omega]

end

/-! ## Wrong combinations -/

theorem forS_go {α : Type} {lo hi : Nat} (g : lo < hi) (body : Nat → α → Option α) (s : α) :
    forS 1 lo hi body s = (body lo s).bind (fun s' => forS 1 (lo + 1) hi body s') := by
  rw [forS, dif_pos ⟨g, by decide⟩]; rfl

theorem forS_end {α : Type} {lo hi : Nat} (g : ¬ lo < hi) (body : Nat → α → Option α) (s : α) :
    forS 1 lo hi body s = some s := by
  rw [forS, dif_neg (fun hh => g hh.1)]

/-- A loop with an iteration that is always undefined is undefined. -/
theorem forS_dead {α : Type} {hi I : Nat} {body : Nat → α → Option α} (hb : ∀ s, body I s = none) (hI : I < hi) :
    ∀ (k lo : Nat) (s : α), lo + k = I → forS 1 lo hi body s = none := by
  intro k
  induction k with
  | zero => intro lo s e; rw [forS_go (by omega), show lo = I by omega, hb]; rfl
  | succ k ih =>
    intro lo s e
    rw [forS_go (by omega)]
    cases body lo s with
    | none => rfl
    | some s' => exact ih _ _ (by omega)

theorem catM_get {m : Nat} {f : Nat → Option (Vec v m)} (h : ∀ p, p < (N + m - 1) / m → (f p).isSome) (hm : 0 < m) :
    ∃ res : Vec v N, catM m f = some res ∧ ∀ i : Fin N, (f (i.val / m)).map (·.at_ (i.val % m)) = some (res i) := by
  have hs : ∀ i : Fin N, ((f (i.val / m)).map (·.at_ (i.val % m))).isSome := fun i => by
    rw [Option.isSome_map]
    refine h _ ?_
    have hi := i.isLt
    rw [Nat.lt_div_iff_mul_lt hm]
    have := Nat.div_mul_le_self i.val m
    omega
  refine ⟨fun i => ((f (i.val / m)).map (·.at_ (i.val % m))).get (hs i), lanesM_eq_some.2 fun i => ?_, fun i => ?_⟩ <;> exact (Option.some_get _).symm

theorem catM_ex {m : Nat} {f : Nat → Option (Vec v m)} {P : Vec v N → Prop} (hm : 0 < m)
    (h : ∀ p, p < (N + m - 1) / m → (f p).isSome)
    (hP : ∀ res : Vec v N, (∀ i : Fin N, (f (i.val / m)).map (·.at_ (i.val % m)) = some (res i)) → P res) :
    ∃ res, catM m f = some res ∧ P res :=
  let ⟨res, e, p⟩ := catM_get (N := N) h hm
  ⟨res, e, hP res p⟩

theorem catM_bind_ex {m : Nat} {f : Nat → Option (Vec v m)} {α : Type} {k : Vec v N → Option α} {P : α → Prop} (hm : 0 < m)
    (h : ∀ p, p < (N + m - 1) / m → (f p).isSome)
    (hP : ∀ x : Vec v N, (∀ i : Fin N, (f (i.val / m)).map (·.at_ (i.val % m)) = some (x i)) → ∃ res, k x = some res ∧ P res) :
    ∃ res, (catM m f).bind k = some res ∧ P res := by
  obtain ⟨x, e, p⟩ := catM_get (N := N) h hm
  rw [e]
  exact hP x p

theorem convUp_16_64 {f : Vec 16 16 → Option (Vec 64 16)} {G : BitVec 16 → BitVec 64} (hf : ∀ x, f x = some (fun i => G (x i)))
    (a : Vec 16 64) : ∃ res : Vec 64 64, convUp 4 8 4 f a = some res ∧ res 16 = G (a 8) := by
  unfold convUp
  simp (config := {decide := true}) only [hf, forS_go, forS_end, vecIx, regWr, Option.bind_eq_bind, Option.bind_some, Option.map_some, if_true, if_false]
  refine catM_ex (by decide) ?_ fun res p => ?_
  · intro p hp
    have hp : p < 8 := hp
    interval_cases p <;> rfl
  · have := p 16
    simp (config := {decide := true}) only [if_true, if_false, Option.map_some, Option.some.injEq] at this
    rw [← this]
    rfl

theorem convDown_64_8 {f : Vec 64 32 → Option (Vec 8 32)} {G : BitVec 64 → BitVec 8} (hf : ∀ x, f x = some (fun i => G (x i)))
    (a : Vec 64 64) : ∃ res : Vec 8 64, convDown 8 8 2 f a = some res ∧ res 32 = G (a 56) := by
  unfold convDown
  simp (config := {decide := true}) only [hf, forS_go, forS_end, vecIx, regWr, Option.bind_eq_bind, Option.bind_some, Option.map_some, if_true, if_false,
    Option.bind_assoc]
  refine catM_bind_ex (by decide) ?_ fun x px => ?_
  · intro p hp
    have hp : p < 4 := hp
    interval_cases p <;> rfl
  refine catM_bind_ex (by decide) ?_ fun y py => ?_
  · intro p hp
    have hp : p < 4 := hp
    interval_cases p <;> rfl
  refine catM_ex (by decide) ?_ fun res p => ?_
  · intro p hp
    have hp : p < 2 := hp
    interval_cases p <;> rfl
  · have h1 := p 32
    have h2 := py 0
    simp (config := {decide := true}) only [if_true, if_false, Option.map_some, Option.some.injEq] at h1 h2
    rw [← h1]
    show G (y 0) = _
    rw [← h2]
    rfl

section
variable {c : Cfg} (h : c.Ok)
include h

theorem fast_fbw (hf : c.avx512f = true) (hb : c.avx512bw = false) :
    c.fast 8 = .r256 ∧ c.fast 16 = .r256 ∧ c.fast 32 = .r512 ∧ c.fast 64 = .r512 := by
  have h2 := h.avx512f hf
  unfold Cfg.fast Cfg.hasInt
  simp [hf, hb, h2]

/-- C29, wrong: on AVX-512F builds without AVX-512BW, converting 128 lanes of 8 bits to 64 bits writes past the registers
of the result (the converter stores 8 registers for every source register, the result has 4). -/
theorem C29_ext8_64_overrun (hf : c.avx512f = true) (hb : c.avx512bw = false) (sg : Bool) (a : Vec 8 128) :
    to_int c sg 8 64 a = none := by
  obtain ⟨f8, -, -, f64⟩ := fast_fbw h hf hb
  have h2 := h.avx512f hf
  have r8 : c.regOf 8 128 = .r256 := by unfold Cfg.regOf; simp [f8, Reg.lanes, Reg.bits]
  have r64 : c.regOf 64 128 = .r512 := by unfold Cfg.regOf; simp [f64, Reg.lanes, Reg.bits]
  show i_ext8_64 c sg a = none
  unfold i_ext8_64
  rw [if_neg (by simp)]
  unfold extAll
  dsimp only
  rw [dif_neg (by rw [r8]; decide), r64]
  unfold convUp
  rw [forS_dead (I := 2) (k := 2) (lo := 0) ?_ (by rw [r8]; decide) _ rfl]
  · rfl
  · intro s
    cases ext8_64 c sg (c.regOf 8 128) (Hw.part _ 2 a) with
    | none => rfl
    | some x =>
      refine forS_dead (hi := 8) (I := 0) (k := 0) ?_ (by decide) _ _ rfl
      intro s
      show ((vecIx _ 0).bind fun j => regWr 16 s 16 _) = none
      cases vecIx _ 0 <;> rfl

/-- C29, wrong: converting 64 lanes of 16 bits to 64 bits on the same builds puts lane 8 of the source into lane 16 of
the result. -/
theorem C29_ext16_64_misplaced (hf : c.avx512f = true) (hb : c.avx512bw = false) (sg : Bool) (a : Vec 16 64) :
    ∃ res, to_int c sg 16 64 a = some res ∧ val sg (res 16) = val sg (a 8) := by
  obtain ⟨-, f16, -, f64⟩ := fast_fbw h hf hb
  have h2 := h.avx512f hf
  have r16 : c.regOf 16 64 = .r256 := by unfold Cfg.regOf; simp [f16, Reg.lanes, Reg.bits]
  have r64 : c.regOf 64 64 = .r512 := by unfold Cfg.regOf; simp [f64, Reg.lanes, Reg.bits]
  have hbase : ∀ x, ext16_64 c sg (c.regOf 16 64) x = some (extOf sg 64 x) := fun x =>
    ext16_64_eq h sg (by rw [r16]; exact h2) rfl x
  show ∃ res, i_ext16_64 c sg a = some res ∧ _
  unfold i_ext16_64
  rw [if_neg (by simp)]
  unfold extAll
  dsimp only
  rw [dif_neg (by rw [r16]; decide), r64]
  revert hbase
  generalize ext16_64 c sg (c.regOf 16 64) = f
  generalize hl : (c.regOf 16 64).lanes 16 = l at f
  have hl' : l = 16 := by rw [← hl, r16]; rfl
  subst hl'
  intro hbase
  obtain ⟨res, e, p⟩ := convUp_16_64 (G := Hw.extLane sg 64) hbase a
  exact ⟨res, e, by rw [p]; exact val_ext (by decide) (by decide) _⟩

/-- C29, wrong: converting 128 lanes of 64 bits to 8 bits on AVX-512F builds without AVX-512BW reads past the registers of
the source. -/
theorem C29_trunc64_8_overrun (hf : c.avx512f = true) (hb : c.avx512bw = false) (sg : Bool) (a : Vec 64 128) :
    to_int c sg 64 8 a = none := by
  obtain ⟨f8, -, -, f64⟩ := fast_fbw h hf hb
  have h2 := h.avx512f hf
  have r8 : c.regOf 8 128 = .r256 := by unfold Cfg.regOf; simp [f8, Reg.lanes, Reg.bits]
  have r64 : c.regOf 64 128 = .r512 := by unfold Cfg.regOf; simp [f64, Reg.lanes, Reg.bits]
  show i_trunc64_8 c a = none
  unfold i_trunc64_8 truncAll
  dsimp only
  rw [dif_neg (by rw [r8]; decide), r64]
  unfold convDown
  rw [forS_dead (I := 2) (k := 2) (lo := 0) ?_ (by rw [r8]; decide) _ rfl]
  · rfl
  · intro s
    rw [forS_dead (I := 0) (k := 0) (lo := 0) ?_ (by decide) _ rfl]
    · rfl
    · intro s; rfl

/-- C29, wrong: converting 64 lanes of 64 bits to 8 bits on the same builds puts source lane 56 into lane 32. -/
theorem C29_trunc64_8_misplaced (hf : c.avx512f = true) (hb : c.avx512bw = false) (sg : Bool) (a : Vec 64 64) :
    ∃ res, to_int c sg 64 8 a = some res ∧ (res 32).toNat = (a 56).toNat % 256 := by
  obtain ⟨f8, -, -, f64⟩ := fast_fbw h hf hb
  have h2 := h.avx512f hf
  have r8 : c.regOf 8 64 = .r256 := by unfold Cfg.regOf; simp [f8, h2, hb, Cfg.hasInt, Reg.lanes, Reg.bits]
  have r64 : c.regOf 64 64 = .r512 := by unfold Cfg.regOf; simp [f64, Reg.lanes, Reg.bits]
  have hbase : ∀ x, trunc64_8 c (c.regOf 8 64) x = some (trOf 8 x) := fun x =>
    trunc64_8_eq h (by rw [r8]; exact h2) rfl x
  show ∃ res, i_trunc64_8 c a = some res ∧ _
  unfold i_trunc64_8 truncAll
  dsimp only
  rw [dif_neg (by rw [r8]; decide), r64, if_neg (by decide)]
  revert hbase
  generalize trunc64_8 c (c.regOf 8 64) = f
  generalize hl : (c.regOf 8 64).lanes 8 = l at f
  have hl' : l = 32 := by rw [← hl, r8]; rfl
  subst hl'
  intro hbase
  obtain ⟨res, e, p⟩ := convDown_64_8 (G := fun x => x.setWidth 8) hbase a
  exact ⟨res, e, by rw [p]; simp⟩

/-- C29, wrong: converting 32-bit lanes to 8 bits on AVX-512F builds without AVX-512BW leaves all registers of the result but
the first unset. -/
theorem C29_trunc32_8_unset (hf : c.avx512f = true) (hb : c.avx512bw = false) (sg : Bool) {K : Nat} (hK : 2 ≤ K)
    (a : Vec 32 (K * 32)) : to_int c sg 32 8 a = none := by
  obtain ⟨f8, -, f32, -⟩ := fast_fbw h hf hb
  have h2 := h.avx512f hf
  have r8 : c.regOf 8 (K * 32) = .r256 := by
    unfold Cfg.regOf
    rw [if_neg (by simp only [Reg.lanes, Reg.bits]; omega), if_neg (by simp only [Reg.lanes, Reg.bits]; omega),
      if_neg (by simp [Cfg.hasInt, hb]), f8]
  show i_trunc32_8 c a = none
  unfold i_trunc32_8
  rw [if_pos ⟨hf, by simp [hb]⟩]
  unfold truncAll
  dsimp only
  rw [dif_neg (by rw [r8]; show ¬ K * 32 = 32; omega), if_pos rfl]
  generalize trunc32_8 c (c.regOf 8 (K * 32)) = f
  generalize hl : (c.regOf 8 (K * 32)).lanes 8 = l at f
  have hl' : l = 32 := by rw [← hl, r8]; rfl
  subst hl'
  unfold convDown
  rw [forS_go (by decide)]
  simp only [forS_end (lo := 0 + 1) (hi := 1) (by decide), Option.bind_some]
  refine Option.eq_none_iff_forall_ne_some.2 fun res hres => ?_
  simp only [Option.bind_eq_bind, Option.bind_eq_some_iff] at hres
  obtain ⟨d, ⟨d', ⟨sr, -, x, -, y, -, ed⟩, e'⟩, ec⟩ := hres
  obtain rfl := Option.some.inj e'
  unfold regWr at ed
  rw [show vecIx (K * 32 / 32) 0 = some 0 from by unfold vecIx; rw [if_pos (by omega)]] at ed
  simp only [Option.map_some, Option.some.injEq] at ed
  have := lanesM_eq_some.1 ec ⟨32, by omega⟩
  rw [← ed] at this
  simp at this

/-- C29, wrong: converting 32 lanes of 32 bits to 8 bits with AVX2 but not AVX-512F puts source lane 16 into lane 4: the
groups of four lanes come out in the order 0, 4, 1, 5, 2, 6, 3, 7. -/
theorem C29_trunc32_8_order (h2 : c.avx2 = true) (hf : c.avx512f = false) (sg : Bool) (a : Vec 32 32) :
    ∃ res, to_int c sg 32 8 a = some res ∧
      ∀ i : Fin 32, (res i).toNat = (a.at_ (i.val / 4 % 2 * 16 + i.val / 8 * 4 + i.val % 4)).toNat % 256 := by
  have b0 := BS.self a 128
  have hs : c.sse2 = true → c.ssse3 = true := fun _ => by
    by_contra hh; cfg_absurd h
  obtain ⟨t1, e1, b1⟩ := maskPermuteR_bs h (q := 1) (u := 16) (s := [0, 4, 8, 12, 0, 0, 0, 0, 0, 0, 0, 0, 0, 0, 0, 0]) hs (r := .r256) h2
    (by decide) (by decide) rfl (by decide) (by decide) (b0.part (q := 4) (m' := 32) 8 0 (by decide) rfl rfl rfl (by decide))
  obtain ⟨t2, e2, b2⟩ := maskPermuteR_bs h (q := 1) (u := 16) (s := [0, 4, 8, 12, 0, 0, 0, 0, 0, 0, 0, 0, 0, 0, 0, 0]) hs (r := .r256) h2
    (by decide) (by decide) rfl (by decide) (by decide) (b0.part (q := 4) (m' := 32) 8 1 (by decide) rfl rfl rfl (by decide))
  obtain ⟨t3, e3, b3⟩ := maskPermuteR_bs h (q := 1) (u := 16) (s := [0, 4, 8, 12, 0, 0, 0, 0, 0, 0, 0, 0, 0, 0, 0, 0]) hs (r := .r256) h2
    (by decide) (by decide) rfl (by decide) (by decide) (b0.part (q := 4) (m' := 32) 8 2 (by decide) rfl rfl rfl (by decide))
  obtain ⟨t4, e4, b4⟩ := maskPermuteR_bs h (q := 1) (u := 16) (s := [0, 4, 8, 12, 0, 0, 0, 0, 0, 0, 0, 0, 0, 0, 0, 0]) hs (r := .r256) h2
    (by decide) (by decide) rfl (by decide) (by decide) (b0.part (q := 4) (m' := 32) 8 3 (by decide) rfl rfl rfl (by decide))
  obtain ⟨t5, e5, b5⟩ := zip_bs h (r := .r256) (w := 32) (n := 8) (q := 4) (m := 32) iw32 h2 rfl rfl rfl b1 b2
  obtain ⟨t6, e6, b6⟩ := zip_bs h (r := .r256) (w := 32) (n := 8) (q := 4) (m := 32) iw32 h2 rfl rfl rfl b3 b4
  obtain ⟨t7, e7, b7⟩ := zipAs_bs h (r := .r256) (u := 64) (l := 4) (q := 8) iw64 h2 rfl rfl rfl (by decide) (by decide) b5 b6
  have c0 := b7.part (q := 4) (m' := 16) 4 0 (by decide) rfl rfl rfl (by decide)
  have c1 := b7.part (q := 4) (m' := 16) 4 1 (by decide) rfl rfl rfl (by decide)
  obtain ⟨u0, f0, d0⟩ := unzip_bs h (w := 32) (n := 4) (q := 4) iw32 rfl rfl rfl c0 c1
  obtain ⟨u1, f1, d1⟩ := unzip_hi_bs h (w := 32) (n := 4) (q := 4) iw32 rfl rfl rfl c0 c1
  obtain ⟨t8, e8, b8⟩ := BS.cat (N := 8) (m := 4) (q := 4) (B := 16) (K := 2) (by decide) (by decide) rfl rfl rfl
    (F := fun p => if p = 0 then i_unzip_lo c .int .r128 (Hw.part 4 0 t7) (Hw.part 4 1 t7)
      else i_unzip_hi c .int .r128 (Hw.part 4 0 t7) (Hw.part 4 1 t7))
    (f := fun p => if p = 0 then _ else _) (A := a.recast 8 128) fun p hp => by
      by_cases g : p = 0
      · subst g; exact ⟨u0, f0, d0⟩
      · rw [if_neg g, if_neg g]; exact ⟨u1, f1, d1⟩
  have hr32 : c.regOf 8 32 = .r256 := by unfold Cfg.regOf; simp [h2, Cfg.hasInt, Reg.lanes, Reg.bits]
  have key : trunc32_8 c .r256 a = some (fun i : Fin 32 => (a.at_ (i.val / 4 % 2 * 16 + i.val / 8 * 4 + i.val % 4)).setWidth 8) := by
    refine (if_pos h2).trans ?_
    rw [if_neg (by simp [hf])]
    simp only [e1, e2, e3, e4, e5, e6, e7, e8, Option.bind_eq_bind, Option.bind_some]
    exact congrArg some (BS.truncBy (qw := 4) (qv := 1) (g := fun i => i / 4 % 2 * 16 + i / 8 * 4 + i % 4)
      (by decide) (by decide) rfl rfl (by decide) rfl rfl
      (b8.recast 8 32 (by decide) (by decide)) (by decide +kernel))
  refine ⟨_, ?_, fun i => by rw [BitVec.toNat_setWidth]⟩
  show i_trunc32_8 c a = _
  unfold i_trunc32_8
  rw [if_neg (by simp [hf])]
  unfold truncAll
  dsimp only
  have gen : ∀ (r : Reg) (T : Vec 8 32) (e : 32 = r.lanes 8), r = .r256 → trunc32_8 c .r256 a = some T →
      (trunc32_8 c r (e ▸ a)).map (e ▸ ·) = some T := by
    intro r T e hr he
    subst hr
    change (trunc32_8 c .r256 a).map (fun x => x) = some T
    rw [he]; rfl
  rw [dif_pos (by rw [hr32]; rfl)]
  exact gen _ _ _ hr32 key

end

/-! ## Concrete cases -/

/-- AVX-512F without AVX-512BW. -/
def Cfg.avx512fOnly : Cfg := { Cfg.avx2Only with avx512f := true }
theorem Cfg.avx512fOnly_ok : Cfg.avx512fOnly.Ok := by constructor <;> decide

/-- Vector lengths exist. -/
example : Cfg.avx2Only.VLen 8 16 ∧ Cfg.avx2Only.VLen 8 32 ∧ Cfg.avx2Only.VLen 8 96 :=
  ⟨Or.inl ⟨.r128, rfl, rfl⟩, Or.inl ⟨.r256, rfl, rfl⟩, Or.inr ⟨3, by decide, rfl⟩⟩

/-- `to_int32(int8<96>)` on AVX2. -/
example (a : Vec 8 96) : ∃ res : Vec 32 96, to_int Cfg.avx2Only true 8 32 a = some res ∧ ∀ i, (res i).toInt = (a i).toInt := by
  obtain ⟨res, e, p⟩ := C29_extend_partial Cfg.avx2Only_ok true (v := 32) isW8 iw32 (by decide) (Or.inr ⟨3, by decide, rfl⟩)
    (by unfold ConvBroken; simp) a
  exact ⟨res, e, p⟩

/-- `to_uint8(uint64<64>)` on SSE4.1. -/
example (a : Vec 64 64) : ∃ res : Vec 8 64, to_int Cfg.sse41Only false 64 8 a = some res ∧ ∀ i, (res i).toNat = (a i).toNat % 256 := by
  obtain ⟨res, e, p⟩ := C29_truncate_partial Cfg.sse41Only_ok false (v := 8) iw64 isW8 (by decide) (Or.inr ⟨4, by decide, rfl⟩)
    (by unfold ConvBroken; decide) a
  exact ⟨res, e, p⟩

/-- The wrong order is observable. -/
example : ∃ a : Vec 32 32, ∃ res, to_int Cfg.avx2Only false 32 8 a = some res ∧ (res 4).toNat ≠ (a 4).toNat % 256 := by
  obtain ⟨res, e, p⟩ := C29_trunc32_8_order Cfg.avx2Only_ok rfl rfl false (fun i => BitVec.ofNat 32 i.val)
  exact ⟨_, res, e, by rw [p]; decide⟩

example (a : Vec 8 128) : to_int Cfg.avx512fOnly true 8 64 a = none := C29_ext8_64_overrun Cfg.avx512fOnly_ok rfl rfl true a

end Simdpp
