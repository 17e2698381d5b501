import Verif.Model.MProg
import Verif.Props.Conv
import Verif.Props.FConv
import Verif.Props.FConvInt
import Verif.Props.Cast
import Verif.Props.Mem

/-!
# C59, conversions: every conversion function, lane by lane, under one set of conditions; whole-vector bit casts
-/

namespace Simdpp
open Spec Spec.MProg

variable {N : Nat}

attribute [local irreducible] Hw.i2f Fp.conv Hw.convZ Fp.ofInt Fp.add Hw.cvtt Hw.fcvtz Fp.num Fp.round Fp.truncInt

/-- The conversion exists on the build for vectors of `N` elements and is not one of the broken ones (C29, C46, C49). -/
def ConvOk (c : Cfg) (N : Nat) : (t t' : ETy) → Prop
  | .int _ u, .int _ v => ¬ ConvBroken c u.n v.n N
  | .int _ .b64, .flt .f64 => c.has64f (c.regF 64 N)
  | .int _ .b64, .flt .f32 => (N = 4 ∧ (c.null = true ∨ c.avx512vl = true ∧ c.avx512dq = true)) ∨ (N = 8 ∧ c.avx = true ∧ c.avx512dq = true)
  | .flt .f64, .flt .f32 => c.vsx206 = false ∧ c.msa = false ∧ (c.avx512f = false ∨ N = 4)
  | .flt _, .int _ .b8 => (c.avx2 = true → c.avx512f = false → N = 16) ∧ (c.avx512f = true → c.avx512bw = false → N ≤ 32)
  | .flt .f64, .int s .b32 => s = false → c.sse2 = true → c.avx512f = true
  | .flt .f64, .int _ .b64 => c.sse2 = true → c.avx512dq = true
  | .flt .f32, .int _ .b64 => (c.sse2 = true → c.avx512dq = true) ∧ (c.regF 32 N = .r256 → c.avx512vl = true)
  | _, _ => True

/-- The element is one the conversion is defined (and correctly rounded) for: floating point to integers needs the integer part to fit (below
`2 ^ 63` for `float` to 64 bits where the code casts lane by lane); `uint32` to `float` on x86 with the emulation needs one rounding to be enough. -/
def ConvIn (c : Cfg) (N : Nat) : (t t' : ETy) → BitVec t.w → Prop
  | .flt .f32, .int s .b64, x => Fits (w := 32) s 64 x ∧ (c.null = true ∨ c.neon32 = true ∨ (c.altivec = true ∧ c.vsx206 = false) → Fp.truncInt (w := 32) x < 2 ^ 63)
  | .flt f, .int s v, x => Fits (w := f.n) s v.n x
  | .int false .b32, .flt .f32, x => c.sse2 = false ∨ (c.avx512f = true ∧ N ≠ 4) ∨ val (w := 32) false x < 2 ^ 31 ∨
      ∃ s q : Nat, 2 ^ 32 - val (w := 32) false x = s * 2 ^ q ∧ s < 2 ^ 24
  | _, _, _ => True

theorem ext_lane {w v : Nat} (s : Bool) (x : BitVec w) : Hw.extLane s v x = Spec.lane v (val s x) := by
  unfold Hw.extLane Spec.lane val
  cases s
  · simp only [Bool.false_eq_true, if_false]
    apply BitVec.eq_of_toNat_eq
    rw [BitVec.toNat_setWidth, BitVec.toNat_ofInt]
    omega
  · rfl

theorem tr_lane {w v : Nat} (hv : v ≤ w) (s : Bool) (x : BitVec w) : x.setWidth v = Spec.lane v (val s x) := by
  rw [← ext_lane]
  unfold Hw.extLane
  cases s
  · rfl
  · simp only [if_true]
    exact (BitVec.signExtend_eq_setWidth_of_le x hv).symm

theorem IW.isW (u : IW) : IsW u.n := by cases u <;> simp [IsW, IW.n]
theorem FWd.okW (f : FWd) : f.n = 32 ∨ f.n = 64 := by cases f <;> simp [FWd.n]
theorem ETy.okW (t : ETy) : t.kind.okW t.w := by
  cases t with
  | int s u => exact IW.isW u
  | flt f => exact FWd.okW f

section
variable {c : Cfg} (h : c.Ok)
include h

theorem i_narrow_f64_eq {w : Nat} (sg : Bool) (hw : w = 8 ∨ w = 16) (hN : c.VLen w N) (a : Vec w N) :
    i_narrow_f64 c sg w a = some (fun i => Fp.ofInt 64 (val sg (a i))) := by
  have hN' := VLen.to32 h hw hN
  unfold i_narrow_f64
  rcases hw with e | e <;> subst e
  · rw [dif_pos rfl, i_ext8_32_eq h sg hN, Option.bind_some, i_i32f64_eq h sg hN']
    refine congrArg some (funext fun i => ?_)
    unfold extOf Hw.i2f
    rw [val_ext (by decide) (by decide)]
  · rw [dif_neg (by decide), dif_pos rfl, i_ext16_32_eq h sg hN, Option.bind_some, i_i32f64_eq h sg hN']
    refine congrArg some (funext fun i => ?_)
    unfold extOf Hw.i2f
    rw [val_ext (by decide) (by decide)]

theorem i_narrow_f32_eq {w : Nat} (sg : Bool) (hw : w = 8 ∨ w = 16) (hN : c.VLen w N) (a : Vec w N) :
    i_narrow_f32 c sg w a = some (fun i => Fp.ofInt 32 (val sg (a i))) := by
  have key : ∀ x : BitVec 32, (sg = false → val true x = val false x) →
      i32f32lane c sg (c.regF 32 N) x = Fp.ofInt 32 (val sg x) := by
    intro x hs
    unfold i32f32lane
    split_ifs with g
    · rw [g.1, u32lane_low (by rw [hs g.1]; unfold val; simp)]
      unfold Hw.i2f; rfl
    · unfold Hw.i2f; rfl
  have small : ∀ {w : Nat} (hw : w = 8 ∨ w = 16) (x : BitVec w),
      sg = false → val true (Hw.extLane sg 32 x) = val false (Hw.extLane sg 32 x) := by
    intro w hw x e; subst e
    have hlt : (Hw.extLane false 32 x).toNat < 2 ^ 16 := by
      unfold Hw.extLane
      simp
      have := x.isLt
      rcases hw with e | e <;> subst e <;> omega
    unfold val
    simp only [if_true, Bool.false_eq_true, if_false]
    rw [BitVec.toInt_eq_toNat_cond, if_pos (by omega)]
  have hF := FLen.of_VLen h hw hN
  unfold i_narrow_f32
  rcases hw with e | e <;> subst e
  · rw [dif_pos rfl, i_ext8_32_eq h sg hN, Option.bind_some, i_i32f32_eq h sg hF]
    refine congrArg some (funext fun i => ?_)
    unfold extOf
    rw [key _ (small (.inl rfl) _), val_ext (by decide) (by decide)]
  · rw [dif_neg (by decide), dif_pos rfl, i_ext16_32_eq h sg hN, Option.bind_some, i_i32f32_eq h sg hF]
    refine congrArg some (funext fun i => ?_)
    unfold extOf
    rw [key _ (small (.inr rfl) _), val_ext (by decide) (by decide)]

theorem of_ex {α β : Type} {n : Nat} {o : Option (Fin n → β)} {a : Fin n → α} {F : α → β} (e : ∃ r, o = some r ∧ ∀ i, r i = F (a i)) :
    o = some (fun i => F (a i)) := by
  obtain ⟨r, e1, e2⟩ := e
  rw [e1]
  exact congrArg some (funext e2)

theorem i_f2i16_eq {w : Nat} (sg : Bool) (hw : w = 32 ∨ w = 64) (hN : c.VLen 16 N) (a : Vec w N) (hf : ∀ i, Fits sg 16 (a i)) :
    i_f2i16 c w a = some (fun i => Spec.lane 16 (Fp.truncInt (a i))) := by
  unfold i_f2i16
  rw [f2i32_fits h hw (FLen.of_VLen h (.inr rfl) hN) (VLen.to32 h (.inr rfl) hN) a (fun i => fits_small (.inr rfl) (hf i)), Option.bind_some,
    i_trunc32_16_eq h hN]
  refine congrArg some (funext fun i => ?_)
  unfold trOf
  exact lane_narrow (by decide) _

theorem i_f2i8_eq {w : Nat} (sg : Bool) (hw : w = 32 ∨ w = 64) (hN : c.VLen 8 N)
    (hx : c.avx2 = true → c.avx512f = false → N = 16) (hy : c.avx512f = true → c.avx512bw = false → N ≤ 32) (a : Vec w N) (hf : ∀ i, Fits sg 8 (a i)) :
    i_f2i8 c w a = some (fun i => Spec.lane 8 (Fp.truncInt (a i))) := by
  unfold i_f2i8
  rw [f2i32_fits h hw (FLen.of_VLen h (.inl rfl) hN) (VLen.to32 h (.inl rfl) hN) a (fun i => fits_small (.inl rfl) (hf i)), Option.bind_some,
    i_trunc32_8_eq h hN hx hy]
  refine congrArg some (funext fun i => ?_)
  unfold trOf
  exact lane_narrow (by decide) _

theorem i_i64f32_once (sg : Bool) (hx : (N = 4 ∧ (c.null = true ∨ c.avx512vl = true ∧ c.avx512dq = true)) ∨ (N = 8 ∧ c.avx = true ∧ c.avx512dq = true))
    (a : Vec 64 N) : i_i64f32 c sg a = some (fun i => Fp.ofInt 32 (val sg (a i))) := by
  have e : a.map (Hw.i2f sg 32) = fun i => Fp.ofInt 32 (val sg (a i)) := by
    funext i; unfold Vec.map Hw.i2f; rfl
  unfold i_i64f32
  rw [e]
  rcases hx with ⟨h4, g⟩ | ⟨h8, g1, g2⟩
  · rw [if_pos h4]
    rcases g with g | ⟨g, g'⟩
    · rw [if_pos g]
    · rw [if_pos g, if_pos g']
      split_ifs <;> rfl
  · rw [if_neg (by omega), if_pos ⟨g1, h8⟩, if_pos g2]

/-- Every conversion, lane by lane. -/
theorem convertV_eq {t t' : ETy} (hN : c.KLen t.kind t.w N) (hN' : c.KLen t'.kind t'.w N) (ok : ConvOk c N t t') (a : Vec t.w N)
    (hin : ∀ i, ConvIn c N t t' (a i)) : convertV c N t t' a = some (fun i => convLane t t' (a i)) := by
  cases t with
  | int s u =>
    cases t' with
    | int s' v =>
      have hN : c.VLen u.n N := hN
      have hN' : c.VLen v.n N := hN'
      have hm : c.VLen (min u.n v.n) N := by rcases Nat.le_total u.n v.n with g | g <;> simp only [g, Nat.min_eq_left, Nat.min_eq_right] <;> assumption
      have := to_int_cases h s (IW.isW u) (IW.isW v) hm ok a
      show to_int c s u.n v.n a = _
      rcases Nat.le_total u.n v.n with g | g
      · exact (this.1 g).trans (congrArg some (funext fun i => ext_lane s (a i)))
      · exact (this.2 g).trans (congrArg some (funext fun i => tr_lane g s (a i)))
    | flt f =>
      cases u <;> cases f
      · exact i_narrow_f32_eq h s (.inl rfl) hN a
      · exact i_narrow_f64_eq h s (.inl rfl) hN a
      · exact i_narrow_f32_eq h s (.inr rfl) hN a
      · exact i_narrow_f64_eq h s (.inr rfl) hN a
      · cases s
        · obtain ⟨r, e1, e2⟩ := C46_uint32_to_float32_partial h hN' a
          exact e1.trans (congrArg some (funext fun i => e2 i (hin i)))
        · exact of_ex h (F := fun x => Fp.ofInt 32 (val true x)) (C46_int32_to_float32 h hN' a)
      · refine (i_i32f64_eq h s hN a).trans (congrArg some (funext fun i => ?_))
        unfold Hw.i2f; rfl
      · exact i_i64f32_once h s ok a
      · exact of_ex h (F := fun x => Fp.ofInt 64 (val s x)) (C46_int64_to_float64 h s hN' ok a)
  | flt f =>
    cases t' with
    | int s v =>
      cases v
      · cases f
        · exact i_f2i8_eq h s (.inl rfl) hN' ok.1 ok.2 a hin
        · exact i_f2i8_eq h s (.inr rfl) hN' ok.1 ok.2 a hin
      · cases f
        · exact i_f2i16_eq h s (.inl rfl) hN' a hin
        · exact i_f2i16_eq h s (.inr rfl) hN' a hin
      · cases f
        · exact i_f32i32_fits h s hN a hin
        · exact i_f64i32_fits h s hN' ok a hin
      · cases f
        · exact i_f32i64_fits h s hN ok.1 ok.2 a (fun i => (hin i).1) fun g i => (hin i).2 g
        · exact i_f64i64_fits h s hN ok a hin
    | flt f' =>
      cases f <;> cases f'
      · rfl
      · exact i_f32f64_eq h hN a
      · exact of_ex h (F := fun x => Fp.conv 32 x) (C46_double_to_float_partial h hN' ok.1 ok.2.1 ok.2.2 a)
      · rfl

end

theorem bitAt_lane {k w L : Nat} (v : Fin k → Fin L → BitVec w) (hw : 0 < w) {j b : Nat} (hb : b < w) (h1 : j / L < k) (h2 : j % L < L) :
    bitAt v (j * w + b) = (v ⟨j / L, h1⟩ ⟨j % L, h2⟩).getLsbD b := by
  have e1 : (j * w + b) / w = j := by rw [Nat.mul_comm, Nat.mul_add_div hw, Nat.div_eq_of_lt hb, Nat.add_zero]
  have e2 : (j * w + b) % w = b := by rw [Nat.mul_comm, Nat.mul_add_mod, Nat.mod_eq_of_lt hb]
  unfold bitAt
  rw [dif_pos (by rw [e1]; exact ⟨h1, h2⟩)]
  simp only [e1, e2]

/-- The registers of integers and of floating-point numbers of one size and number. -/
theorem regK_flt {c : Cfg} (h : c.Ok) {w : Nat} (hw : w = 32 ∨ w = 64) (N : Nat) :
    c.regK .flt w N = c.regK .int w N ∨ c.regK .flt w N = .r256 ∧ c.regK .int w N = .r128 := by
  unfold Cfg.regK Cfg.regF Cfg.regOf Cfg.fast Cfg.hasInt
  rcases fastF_cases h with ⟨h1, h2, h3, e⟩ | ⟨h1, h2, h3, e⟩ | ⟨h1, h2, h3, e⟩ | ⟨h1, h2, h3, e⟩ <;> rw [e] <;> rcases hw with g | g <;> subst g <;>
    simp [h1, h2, h3] <;> first | exact Classical.em _ | (split_ifs <;> simp)

theorem regK_ratio {c : Cfg} (h : c.Ok) {w : Nat} {k k' : Kind} (ok : k.okW w) (ok' : k'.okW w) (N : Nat) :
    (c.regK k w N).lanes w = (c.regK k' w N).lanes w ∨ (c.regK k w N).lanes w = 2 * (c.regK k' w N).lanes w ∨
      2 * (c.regK k w N).lanes w = (c.regK k' w N).lanes w := by
  have hl : w = 32 ∨ w = 64 → Reg.r256.lanes w = 2 * Reg.r128.lanes w := by rintro (e | e) <;> subst e <;> decide
  cases k <;> cases k'
  · exact .inl rfl
  · rcases regK_flt h ok' N with e | ⟨e, e'⟩
    · exact .inl (by rw [e])
    · rw [e, e']; exact .inr (.inr (hl ok').symm)
  · rcases regK_flt h ok N with e | ⟨e, e'⟩
    · exact .inl (by rw [e])
    · rw [e, e']; exact .inr (.inl (hl ok))
  · exact .inl rfl

/-- A bit cast between vectors of equally wide elements keeps every lane. -/
theorem bitCastR_eq {c : Cfg} (h : c.Ok) {w : Nat} {k k' : Kind} (ok : k.okW w) (ok' : k'.okW w) (hN : c.KLen k w N) (hN' : c.KLen k' w N)
    (j : Nat → Vec w ((c.regK k' w N).lanes w)) (a : Vec w N) : bitCastR w (c.regK k w N) (c.regK k' w N) j a = some a := by
  obtain ⟨hr, K, hK, eN⟩ := KLen.regs h ok hN
  obtain ⟨hr', K', hK', eN'⟩ := KLen.regs h ok' hN'
  have hrat := regK_ratio h ok ok' N
  have hL := lanes_pos ok.isW (c.regK k w N)
  have hL' := lanes_pos ok.isW (c.regK k' w N)
  have hw := isW_pos ok.isW
  generalize c.regK k w N = r at *
  generalize c.regK k' w N = r' at *
  have eK : N / r.lanes w = K := by rw [eN, Nat.mul_div_cancel _ hL]
  have eK' : N / r'.lanes w = K' := by rw [eN', Nat.mul_div_cancel _ hL']
  have hk : N / r.lanes w = N / r'.lanes w ∨ N / r.lanes w = N / r'.lanes w * 2 ∨ N / r.lanes w * 2 = N / r'.lanes w := by
    rw [eK, eK']
    have e := eN.symm.trans eN'
    rcases hrat with g | g | g
    · rw [g] at e; exact .inl (Nat.eq_of_mul_eq_mul_right hL' e)
    · rw [g, ← Nat.mul_assoc] at e; exact .inr (.inr (Nat.eq_of_mul_eq_mul_right hL' e))
    · rw [← g, ← Nat.mul_assoc] at e; exact .inr (.inl (Nat.eq_of_mul_eq_mul_right hL e))
  obtain ⟨res, e1, e2⟩ := C45_bit_cast (kT := N / r.lanes w) (kR := N / r'.lanes w) hw hL hw hL'
    (by rw [eK, eK', Nat.mul_left_comm, ← eN, Nat.mul_left_comm, ← eN']) hk
    (fun q => Hw.part (r.lanes w) q.val a) (fun q => j q.val)
  unfold bitCastR
  rw [e1]
  refine catM_regs hL' eN' fun q hq => ?_
  rw [dif_pos (eK'.symm ▸ hq)]
  refine congrArg some (funext fun l => ?_)
  have hlt : q * r'.lanes w + l.val < N := by
    have := l.isLt
    have := Nat.mul_le_mul_right (r'.lanes w) (show q + 1 ≤ K' from hq)
    rw [← eN', Nat.add_mul, Nat.one_mul] at this
    omega
  show _ = Vec.at_ a _
  rw [Vec.at_lt _ hlt]
  apply BitVec.eq_of_getLsbD_eq
  intro b hb
  have d1 : (q * r'.lanes w + l.val) / r'.lanes w = q := by rw [Nat.mul_comm, Nat.mul_add_div hL', Nat.div_eq_of_lt l.isLt, Nat.add_zero]
  have d2 : (q * r'.lanes w + l.val) % r'.lanes w = l.val := by rw [Nat.mul_comm, Nat.mul_add_mod, Nat.mod_eq_of_lt l.isLt]
  have g1 := bitAt_lane res hw (j := q * r'.lanes w + l.val) hb (by rw [d1, eK']; exact hq) (Nat.mod_lt _ hL')
  have g2 := bitAt_lane (fun q : Fin (N / r.lanes w) => Hw.part (r.lanes w) q.val a) hw (j := q * r'.lanes w + l.val) hb
    (by rw [eK]; exact Nat.div_lt_of_lt_mul (by rw [Nat.mul_comm (r.lanes w), ← eN]; exact hlt)) (Nat.mod_lt _ hL)
  have g3 := e2 ((q * r'.lanes w + l.val) * w + b) (by
    rw [eK', Nat.mul_left_comm, ← eN']
    calc _ < (q * r'.lanes w + l.val) * w + w := by omega
      _ = w * (q * r'.lanes w + l.val + 1) := by rw [Nat.mul_add, Nat.mul_one, Nat.mul_comm]
      _ ≤ _ := Nat.mul_le_mul_left _ hlt)
  rw [g1, g2] at g3
  simp only [d1, d2] at g3
  rw [g3]
  congr 1
  refine (Hw.part_at _ (Nat.mod_lt _ hL)).symm.trans ?_
  show Vec.at_ _ _ = _
  rw [Vec.at_lt _ (Nat.mod_lt _ hL)]
  show Vec.at_ _ _ = _
  have e5 : (q * r'.lanes w + l.val) / r.lanes w * r.lanes w + (q * r'.lanes w + l.val) % r.lanes w = q * r'.lanes w + l.val := by
    rw [Nat.mul_comm]; exact Nat.div_add_mod _ _
  simp only [e5]
  exact Vec.at_lt _ hlt

theorem bitCastR_cast {c : Cfg} (h : c.Ok) {w v : Nat} (e : w = v) {k k' : Kind} (ok : k.okW w) (ok' : k'.okW v) (hN : c.KLen k w N) (hN' : c.KLen k' v N)
    (j : Nat → Vec v ((c.regK k' v N).lanes v)) (a : Vec w N) : bitCastR v (c.regK k w N) (c.regK k' v N) j a = some (fun i => (a i).cast e) := by
  subst e
  exact bitCastR_eq h ok ok' hN hN' j a

end Simdpp
