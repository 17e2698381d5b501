import Verif.Props.MakeConst

/-!
# splat of a scalar and load_splat
-/

namespace Simdpp
open Spec Sh Mem

variable {c : Cfg} {w n N : Nat} {r : Reg}

theorem make_vec_one (x : BitVec w) : (Null.make_vec [x] : Vec w n) = Vec.splat x := by
  funext i
  show [x].getD (i.val % 1) 0 = x
  rw [Nat.mod_one]; rfl

theorem ofLow_zero (x : BitVec w) (hn : 0 < n) : (Hw.ofLow x : Vec w n).at_ 0 = x := by
  rw [Vec.at_lt _ hn]; exact if_pos rfl

theorem bcast_ofLow {m : Nat} (x : BitVec w) (hm : 0 < m) : (Hw.broadcast (Hw.ofLow x : Vec w m) : Vec w n) = Vec.splat x := by
  unfold Hw.broadcast; rw [ofLow_zero x hm]

theorem cvtsi32_zero (hw : IsW w) (h32 : w ≤ 32) (x : BitVec w) : (cvtsi32 x).at_ 0 = x := by
  have hp : 0 < 128 / w := by rcases hw with rfl | rfl | rfl | rfl <;> decide
  rw [Vec.at_lt _ hp]
  apply BitVec.eq_of_getLsbD_eq
  intro k hk
  unfold cvtsi32
  rw [Vec.recast_getLsbD]
  have : (Hw.ofLow (x.setWidth 32) : Vec 32 4).bit (0 * w + k) = (x.setWidth 32).getLsbD k := by
    rw [Nat.zero_mul]
    exact Vec.bit_eq (Hw.ofLow (x.setWidth 32) : Vec 32 4) 0 (show k < 32 by omega)
  rw [this, BitVec.getLsbD_setWidth]
  simp [hk, show k < 32 by omega]

theorem bcast_cvtsi32 (hw : IsW w) (h32 : w ≤ 32) (x : BitVec w) : (Hw.broadcast (cvtsi32 x) : Vec w n) = Vec.splat x := by
  unfold Hw.broadcast; rw [cvtsi32_zero hw h32]

theorem lde_zero (x : BitVec w) (junk : Nat → BitVec w) (hn : 0 < n) : (Hw.lde 0 x junk : Vec w n).at_ 0 = x := by
  rw [Vec.at_lt _ hn]; exact if_pos rfl

theorem perm4_zero' (h : c.Ok) (gnuc : Bool) {k : Kind} (a : Vec 32 4) :
    i_permute4_32 c gnuc k .r128 0 0 0 0 a = some (Vec.splat (a.at_ 0)) := by
  have hz : (0 : Nat) < 4 := by decide
  refine (i_permute4_32_eq h gnuc (r := .r128) (n := 4) (k := k) (by cases k <;> rfl) (by rfl) hz hz hz hz a).trans ?_
  refine congrArg some (ext_at fun i hi => ?_)
  rw [gather_at _ _ hi, Vec.at_lt _ hi]
  obtain rfl | rfl | rfl | rfl : i = 0 ∨ i = 1 ∨ i = 2 ∨ i = 3 := by omega
  all_goals rfl

theorem perm2_zero (h : c.Ok) {k : Kind} (a : Vec 64 2) : i_permute2_64 c k .r128 0 0 a = some (Vec.splat (a.at_ 0)) := by
  have hz : (0 : Nat) < 2 := by decide
  refine (i_permute2_64_eq h (r := .r128) (n := 2) (k := k) (by cases k <;> rfl) (by rfl) hz hz a).trans ?_
  refine congrArg some (ext_at fun i hi => ?_)
  rw [gather_at _ _ hi, Vec.at_lt _ hi]
  obtain rfl | rfl : i = 0 ∨ i = 1 := by omega
  all_goals rfl

theorem splat_zero (h : c.Ok) (gnuc : Bool) {k : Kind} (hw : k.okW w) (a : Vec w (Reg.r128.lanes w)) :
    i_splat c gnuc k .r128 0 a = some (Vec.splat (a.at_ 0)) :=
  i_splat_eq h gnuc hw (by cases k <;> rfl) (lanes_pos hw.isW _) a

theorem i_set_splat32_eq (h : c.Ok) (gnuc : Bool) (junk : Nat → BitVec 32) (x : BitVec 32) :
    i_set_splat32 c gnuc junk x = some (Vec.splat x) := by
  unfold i_set_splat32
  refine ite_cases (fun _ => congrArg some (make_vec_one x)) fun b1 => ite_cases (fun _ => congrArg some (bcast_ofLow x (by decide))) fun b2 =>
    ite_cases (fun _ => ?_) fun b3 => ite_cases (fun _ => rfl) fun b4 => ite_cases (fun _ => ?_) fun b5 => ite_cases (fun _ => rfl) fun b6 => ?_
  · rw [perm4_zero' h gnuc, ofLow_zero x (by decide)]
  · refine (splat_zero h gnuc (k := .int) iw32 (Hw.lde 0 x junk)).trans ?_
    rw [lde_zero x junk (by decide)]; rfl
  · exfalso; cfg_absurd h

/-- Four equal bytes. -/
theorem mul_bytes (x : BitVec 8) : ∀ p, p < 4 → ∀ k, k < 8 →
    (BitVec.ofInt 32 ((x.toNat : Int) * 0x01010101)).getLsbD (p * 8 + k) = x.getLsbD k := by
  revert x; decide +kernel

theorem splat8_sse (h : c.Ok) (gnuc : Bool) (x : BitVec 8) (hx : x.toNat < 128) :
    (do
      let u0 ← C.mul (C.lane false x) ⟨C.int32, 0x01010101⟩
      let u ← i_set_splat32 c gnuc (fun _ => 0) (C.toLane 32 u0)
      some (u.recast 8 16)) = some (Vec.splat x) := by
  have hm : C.mul (C.lane false x) ⟨C.int32, 0x01010101⟩ = some ⟨C.int32, (x.toNat : Int) * 0x01010101⟩ := by
    refine C.mul_inR (u := C.int32) rfl (by decide) ⟨?_, ?_⟩ ⟨by decide, by decide⟩ ⟨?_, ?_⟩
    all_goals simp only [C.Ty.min, C.Ty.max, C.int32]; norm_num
    all_goals omega
  refine (bind_of hm _).trans ((bind_of (i_set_splat32_eq h gnuc _ _) _).trans (congrArg some ?_))
  refine pack_recast (P := 4) (by decide) (by decide) (by decide) rfl _ (fun _ => x) ?_
  intro q p hp k hk
  exact mul_bytes x p hp k hk

theorem dup16 (x : BitVec 16) {p : Nat} (hp : p < 2) {k : Nat} (hk : k < 16) :
    ((x.setWidth 32 ||| x.setWidth 32 <<< 16 : BitVec 32).setWidth 32).getLsbD (p * 16 + k) = x.getLsbD k := by
  obtain rfl | rfl : p = 0 ∨ p = 1 := by omega
  · simp [hk, show k < 32 by omega]
  · simp [hk, show 16 + k < 32 by omega, BitVec.getLsbD_of_ge x (16 + k) (by omega)]

/-- A 64-bit value from its halves. -/
theorem halves64 (x : BitVec 64) {G : Vec 32 4} (g0 : G 0 = x.setWidth 32) (g1 : G 1 = (x >>> 32).setWidth 32) :
    (G.recast 64 2 : Vec 64 2).at_ 0 = x := by
  rw [Vec.at_lt _ (by decide)]
  apply BitVec.eq_of_getLsbD_eq
  intro k hk
  rw [Vec.recast_getLsbD]
  rw [Nat.zero_mul, Nat.zero_add]
  by_cases hl : k < 32
  · have := Vec.bit_eq G 0 hl
    rw [show (0 : Fin 4).val * 32 + k = k by simp] at this
    rw [this, g0, BitVec.getLsbD_setWidth]; simp [hl, hk]
  · have := Vec.bit_eq G 1 (show k - 32 < 32 by omega)
    rw [show (1 : Fin 4).val * 32 + (k - 32) = k by simp; omega] at this
    rw [this, g1, BitVec.getLsbD_setWidth, BitVec.getLsbD_ushiftRight, show 32 + (k - 32) = k by omega]
    simp [show k - 32 < 32 by omega, hk]

theorem splat16_sse (h : c.Ok) (gnuc : Bool) (x : BitVec 16) :
    (do
      let u0 := C.bor (C.lane false x) (← C.shl (C.lane false x) ⟨C.int32, 16⟩)
      let u ← i_set_splat32 c gnuc (fun _ => 0) (C.toLane 32 u0)
      some (u.recast 16 8)) = some (Vec.splat x) := by
  have hx := x.isLt
  have hs : C.shl (C.lane false x) ⟨C.int32, 16⟩ = some ⟨C.int32, C.wrap C.int32 ((x.toNat : Int) * 2 ^ 16)⟩ := by
    unfold C.shl
    dsimp only
    have e1 : C.wrap (C.promTy (C.lane false x).ty) (C.lane false x).v = x.toNat :=
      C.wrap_i32 (by rw [C.lane_v_unsigned]; omega) (by rw [C.lane_v_unsigned]; omega)
    have e2 : C.wrap (C.promTy C.int32) 16 = 16 := by decide
    have e3 : (C.promTy (C.lane false x).ty) = C.int32 := rfl
    rw [e1, e2, e3, if_pos (by decide), if_pos (by decide)]
    refine if_pos ⟨by omega, ?_⟩
    show (x.toNat : Int) * 65536 < 4294967296
    omega
  refine (bind_of hs _).trans ((bind_of (i_set_splat32_eq h gnuc _ _) _).trans (congrArg some ?_))
  refine pack_recast (P := 2) (by decide) (by decide) (by decide) rfl _ (fun _ => x) ?_
  intro q p hp k hk
  show (C.toLane 32 (C.bor (C.lane false x) ⟨C.int32, C.wrap C.int32 ((x.toNat : Int) * 2 ^ 16)⟩)).getLsbD (p * 16 + k) = x.getLsbD k
  have hb : C.bor (C.lane false x) ⟨C.int32, C.wrap C.int32 ((x.toNat : Int) * 2 ^ 16)⟩ =
      C.valOf C.int32 (C.bitsOf C.int32 (x.toNat : Int) ||| C.bitsOf C.int32 (C.wrap C.int32 ((x.toNat : Int) * 2 ^ 16))) := by
    unfold C.bor; dsimp only; rw [show C.usual (C.lane false x).ty C.int32 = C.int32 from rfl, C.lane_v_unsigned]
  rw [hb, mc_toLane_valOf C.int32 _ (by decide)]
  have e1 : C.bitsOf C.int32 (x.toNat : Int) = x.setWidth 32 := by
    unfold C.bitsOf; rw [BitVec.ofInt_natCast]; apply BitVec.eq_of_toNat_eq; simp [C.int32]
  have e2 : C.bitsOf C.int32 (C.wrap C.int32 ((x.toNat : Int) * 2 ^ 16)) = x.setWidth 32 <<< 16 := by
    unfold C.bitsOf
    rw [mc_ofInt_wrap, show ((x.toNat : Int) * 2 ^ 16) = ((x.toNat * 2 ^ 16 : Nat) : Int) by push_cast; rfl, BitVec.ofInt_natCast]
    apply BitVec.eq_of_toNat_eq; simp [Nat.shiftLeft_eq, C.int32]
  rw [e1, e2]
  exact dup16 x hp hk

theorem lowX64_eq (h : c.Ok) (x : BitVec 64) : ∃ v, lowX64 c x = some v ∧ v.at_ 0 = x := by
  unfold lowX64
  by_cases g : c.bits64 = true
  · exact ⟨_, if_pos g, ofLow_zero x (by decide)⟩
  rw [if_neg g]
  have := i_zip_lo_eq h (k := .int) iw32 (r := .r128) rfl rfl (Hw.ofLow (x.setWidth 32) : Vec 32 4) (Hw.ofLow ((x >>> 32).setWidth 32) : Vec 32 4)
  refine ⟨_, bind_of this _, ?_⟩
  exact halves64 x rfl rfl

/-- `splat` of an 8-bit value of at least 128 overflows `int` on x86 builds without AVX2. -/
def Cfg.SplatOk (c : Cfg) (k : Kind) (w : Nat) (x : BitVec w) : Prop :=
  k = .int → w = 8 → c.sse2 = true → c.avx2 = false → x.toNat < 128

theorem i_set_splat_int_eq (h : c.Ok) (gnuc : Bool) (hw : IsW w) (hr : c.hasInt w r = true) (junk : Nat → BitVec w) {x : BitVec w}
    (hx : c.SplatOk .int w x) : i_set_splat_int c gnuc r junk x = some (Vec.splat x) := by
  unfold i_set_splat_int
  cases r
  · dsimp only
    have hal : i_splat c gnuc .int .r128 0 (Hw.lde 0 x junk : Vec w (Reg.r128.lanes w)) = some (Vec.splat x) :=
      (splat_zero h gnuc (k := .int) hw _).trans (by rw [lde_zero x junk (lanes_pos hw _)])
    rcases hw with rfl | rfl | rfl | rfl
    · rw [if_pos rfl]
      refine ite_cases (fun _ => congrArg some (make_vec_one x)) fun b1 => ite_cases (fun _ => congrArg some (bcast_cvtsi32 isW8 (by decide) x)) fun b2 =>
        ite_cases (fun b3 => splat8_sse h gnuc x (hx rfl rfl b3 (by simpa using b2))) fun b3 => ite_cases (fun _ => rfl) fun b4 =>
        ite_cases (fun _ => hal) fun b5 => ite_cases (fun _ => rfl) fun b6 => ?_
      exfalso; cfg_absurd h
    · rw [if_neg (by decide), if_pos rfl]
      refine ite_cases (fun _ => congrArg some (make_vec_one x)) fun b1 => ite_cases (fun _ => congrArg some (bcast_cvtsi32 iw16 (by decide) x)) fun b2 =>
        ite_cases (fun b3 => splat16_sse h gnuc x) fun b3 => ite_cases (fun _ => rfl) fun b4 =>
        ite_cases (fun _ => hal) fun b5 => ite_cases (fun _ => rfl) fun b6 => ?_
      exfalso; cfg_absurd h
    · rw [if_neg (by decide), if_neg (by decide)]
      exact (dif_pos rfl).trans (i_set_splat32_eq h gnuc junk x)
    · rw [if_neg (by decide), if_neg (by decide)]
      refine (dif_neg (by decide)).trans ((dif_pos rfl).trans ?_)
      refine ite_cases (fun _ => ?_) fun b1 => ite_cases (fun _ => rfl) fun b2 => ite_cases (fun _ => ?_) fun b3 =>
        ite_cases (fun _ => ?_) fun b4 => ite_cases (fun _ => congrArg some (make_vec_one x)) fun b5 => ?_
      · obtain ⟨v, e, hv⟩ := lowX64_eq h x
        refine (bind_of e _).trans ?_
        rw [perm2_zero h, hv]
        rfl
      · exact hal
      · refine congrArg some ?_
        show Vec.splat _ = Vec.splat x
        congr 1
        exact halves64 x rfl rfl
      · exfalso; clear hal; cfg_absurd h
  · refine (if_pos hr).trans ?_
    refine ite_cases (fun g => congrArg some (bcast_cvtsi32 hw g x)) fun g => ?_
    obtain rfl : w = 64 := by rcases hw with rfl | rfl | rfl | rfl <;> first | rfl | exact absurd (by decide) g
    obtain ⟨v, e, hv⟩ := lowX64_eq h (x.setWidth 64)
    rw [e]
    refine congrArg some ?_
    show Vec.splat _ = Vec.splat x
    congr 1
    rw [show (v.recast 64 (128 / 64) : Vec 64 (128 / 64)) = v from Vec.recast_self v, hv, BitVec.setWidth_eq]
  · refine ite_cases (fun g => ?_) fun g => ?_
    · exact (if_pos (by rw [← hr]; unfold Cfg.hasInt; dsimp only; rw [if_pos g])).trans (congrArg some (bcast_cvtsi32 hw (by omega) x))
    · exact if_pos (by rw [← hr]; unfold Cfg.hasInt; dsimp only; rw [if_neg g])


theorem i_set_splat_flt_eq (h : c.Ok) (gnuc : Bool) (hw : Kind.flt.okW w) (hr : c.hasVec .flt w r = true) (junk : Nat → BitVec w) (x : BitVec w) :
    i_set_splat_flt c gnuc r junk x = some (Vec.splat x) := by
  have hW := hw.isW
  have hp := lanes_pos hW .r128
  have hal : i_splat c gnuc .flt .r128 0 (Hw.lde 0 x junk : Vec w (Reg.r128.lanes w)) = some (Vec.splat x) :=
    (splat_zero h gnuc (k := .flt) hw _).trans (by rw [lde_zero x junk hp])
  have hdup : (Hw.dupLane (fun i => if i.val = 0 then x else junk i.val : Vec w (128 / w)) 0) = some (Vec.splat x) :=
    (if_pos hp).trans (congrArg some (congrArg Vec.splat ((Vec.at_lt _ hp).trans (if_pos rfl))))
  have h128 : (if w = 32 then
      if c.null ∨ c.neonNoFltSp then some (Null.make_vec [x])
      else if c.sse2 then some (Vec.splat x)
      else if c.neon then some (Vec.splat x)
      else if c.altivec then i_splat c gnuc .flt .r128 0 (Hw.lde 0 x junk)
      else if c.msa then Hw.dupLane (fun i => if i.val = 0 then x else junk i.val : Vec w (128 / w)) 0
      else none
    else
      if c.sse2 then some (Vec.splat x)
      else if c.neon64 then some (Vec.splat x)
      else if c.vsx206 then i_splat c gnuc .flt .r128 0 (fun i => if i.val = 0 then x else junk i.val : Vec w (128 / w))
      else if c.msa then Hw.dupLane (fun i => if i.val = 0 then x else junk i.val : Vec w (128 / w)) 0
      else if c.null ∨ c.neon ∨ c.altivec then some (Null.make_vec [x])
      else none) = some (Vec.splat x : Vec w (128 / w)) := by
    refine ite_cases (fun _ => ?_) fun _ => ?_
    · refine ite_cases (fun _ => congrArg some (make_vec_one x)) fun b1 => ite_cases (fun _ => rfl) fun b2 => ite_cases (fun _ => rfl) fun b3 =>
        ite_cases (fun _ => hal) fun b4 => ite_cases (fun _ => hdup) fun b5 => ?_
      exfalso; clear hal hdup; cfg_absurd h
    · refine ite_cases (fun _ => rfl) fun b1 => ite_cases (fun _ => rfl) fun b2 => ite_cases (fun _ => hal) fun b3 =>
        ite_cases (fun _ => hdup) fun b4 => ite_cases (fun _ => congrArg some (make_vec_one x)) fun b5 => ?_
      exfalso; clear hal hdup; cfg_absurd h
  unfold i_set_splat_flt
  dsimp only
  cases r
  · exact h128
  · exact if_pos hr
  · refine (if_pos hr).trans (ite_cases (fun g => ?_) fun _ => rfl)
    refine (congrArg (Option.map fun a : Vec w (128 / w) => fun i : Fin (Reg.r512.lanes w) => a.at_ (i.val % 4)) h128).trans ?_
    subst g
    refine congrArg some (funext fun i => ?_)
    show (Vec.splat x : Vec 32 4).at_ (i.val % 4) = x
    rw [Vec.at_lt _ (Nat.mod_lt _ (by decide))]; rfl

theorem i_set_splat_eq (h : c.Ok) (gnuc : Bool) {k : Kind} (hw : k.okW w) (hr : c.hasVec k w r = true) (junk : Nat → BitVec w) {x : BitVec w}
    (hx : c.SplatOk k w x) : i_set_splat c gnuc k r junk x = some (Vec.splat x) := by
  cases k
  · exact i_set_splat_int_eq h gnuc hw hr junk hx
  · exact i_set_splat_flt_eq h gnuc hw hr junk x

theorem set_splat_eq (h : c.Ok) (gnuc : Bool) {k : Kind} (hw : k.okW w) (hN : c.KLen k w N) (junk : Nat → BitVec w) {x : BitVec w}
    (hx : c.SplatOk k w x) : set_splat c gnuc k w N junk x = some (Vec.splat x) := by
  obtain ⟨hr, K, -, e⟩ := KLen.regs h hw hN
  unfold set_splat
  generalize c.regK k w N = r at *
  refine catM_regs (lanes_pos hw.isW r) e fun j hj => ?_
  rw [i_set_splat_eq h gnuc hw hr junk hx]
  refine congrArg some (funext fun i => ?_)
  unfold Hw.part
  have hi : j * r.lanes w + i.val < N := by
    rw [e]
    calc j * r.lanes w + i.val < (j + 1) * r.lanes w := by rw [Nat.add_mul, Nat.one_mul]; have := i.isLt; omega
      _ ≤ K * r.lanes w := Nat.mul_le_mul_right _ hj
  rw [Vec.at_lt _ hi]; rfl

/-! ## load_splat -/

/-- The bytes `load_splat` reads: one element, except that VSX builds read a whole register for 64-bit elements. -/
def Cfg.splatLen (c : Cfg) (k : Kind) (w : Nat) : Nat :=
  if w = 64 ∧ (match k with | .int => c.vsx207 | .flt => c.vsx206) = true then 16 else w / 8

theorem splatLen_le (c : Cfg) (k : Kind) (hw : IsW w) : w / 8 ≤ c.splatLen k w := by
  unfold Cfg.splatLen
  split_ifs with g
  · rw [g.1]; decide
  · exact le_refl _

theorem ld1_eq {m : Mem} {p : Nat} (hb : 0 < w) (ha : m.Acc p (w / 8)) : m.ld1 w p = some ((get w 1 m p).at_ 0) := by
  unfold Mem.ld1
  rw [ldv_eq (n := 1) (by rw [Nat.one_mul]; exact ha)]; rfl

theorem deref_eq {m : Mem} {p : Nat} (hb : 0 < w) (hp : p % (w / 8) = 0) (ha : m.Acc p (w / 8)) : m.deref w p = some ((get w 1 m p).at_ 0) := by
  unfold Mem.deref
  rw [al_eq hp]; exact ld1_eq hb ha

theorem load1_u_eq (hw : IsW w) (junk : Nat → BitVec w) {m : Mem} {p : Nat} (hp : p % (w / 8) = 0) (ha : m.Acc p (w / 8)) :
    ∃ v, load1_u junk m p = some v ∧ v.at_ 0 = (get w 1 m p).at_ 0 := by
  have hB := isW_bpos hw
  have hd : p / (w / 8) * (w / 8) = p := by have := Nat.div_add_mod p (w / 8); rw [hp, Nat.add_zero, Nat.mul_comm] at this; exact this
  have h0 : 0 < w := by rcases hw with rfl | rfl | rfl | rfl <;> decide
  unfold load1_u
  rw [hd, ld1_eq h0 ha]
  refine ⟨_, rfl, ?_⟩
  generalize (get w 1 m p).at_ 0 = x
  have hL : 0 < 128 / w := lanes_pos hw .r128
  rw [Vec.at_lt _ hL]
  have hLB : 128 / w * (w / 8) = 16 := by rcases hw with rfl | rfl | rfl | rfl <;> decide
  have hm : p % 16 % (w / 8) = 0 := by
    rw [Nat.mod_mod_of_dvd _ ⟨128 / w, by rw [Nat.mul_comm]; exact hLB.symm⟩]; exact hp
  refine byteOf_inj hw fun j hj => ?_
  have hle : w / 8 ≤ 16 := by rcases hw with rfl | rfl | rfl | rfl <;> decide
  have e1 := byteOf_recast hw (n := 128 / w) (hLB ▸ (Hw.vperm ((Hw.lde (p % 16 / (w / 8)) x junk : Vec w (128 / w)).recast 8 16)
    ((Hw.lde (p % 16 / (w / 8)) x junk : Vec w (128 / w)).recast 8 16) (Hw.lvsl p) : Vec 8 16) : Vec 8 (128 / w * (w / 8))) ⟨0, hL⟩ hj
  rcases hw with rfl | rfl | rfl | rfl
  all_goals
    refine e1.trans ?_
    rw [Nat.zero_mul, Nat.zero_add]
    show (Hw.vperm _ _ _ : Vec 8 16).at_ j = _
    rw [vperm_at _ _ _ (show j < 16 by omega), lvsl_at (show j < 16 by omega) rfl]
    have hs : p % 16 + j < 16 := by omega
    rw [if_pos (by omega), show (p % 16 + j) % 32 = p % 16 + j by omega]
  · have := recast8_at isW8 (Hw.lde (p % 16 / (8 / 8)) x junk : Vec 8 16) (x := p % 16 + j) (by omega)
    refine this.trans ?_
    rw [show (p % 16 + j) / (8 / 8) = p % 16 / (8 / 8) by omega, show (p % 16 + j) % (8 / 8) = j by omega, Vec.at_lt _ (by omega)]
    unfold Hw.lde; rw [if_pos rfl]
  · have := recast8_at iw16 (Hw.lde (p % 16 / (16 / 8)) x junk : Vec 16 8) (x := p % 16 + j) (by omega)
    refine this.trans ?_
    rw [show (p % 16 + j) / (16 / 8) = p % 16 / (16 / 8) by omega, show (p % 16 + j) % (16 / 8) = j by omega, Vec.at_lt _ (by omega)]
    unfold Hw.lde; rw [if_pos rfl]
  · have := recast8_at iw32 (Hw.lde (p % 16 / (32 / 8)) x junk : Vec 32 4) (x := p % 16 + j) (by omega)
    refine this.trans ?_
    rw [show (p % 16 + j) / (32 / 8) = p % 16 / (32 / 8) by omega, show (p % 16 + j) % (32 / 8) = j by omega, Vec.at_lt _ (by omega)]
    unfold Hw.lde; rw [if_pos rfl]
  · have := recast8_at iw64 (Hw.lde (p % 16 / (64 / 8)) x junk : Vec 64 2) (x := p % 16 + j) (by omega)
    refine this.trans ?_
    rw [show (p % 16 + j) / (64 / 8) = p % 16 / (64 / 8) by omega, show (p % 16 + j) % (64 / 8) = j by omega, Vec.at_lt _ (by omega)]
    unfold Hw.lde; rw [if_pos rfl]

theorem get_zero (hw : IsW w) (hn : 0 < n) (m : Mem) (p : Nat) : (get w n m p).at_ 0 = (get w 1 m p).at_ 0 := by
  rw [Vec.at_lt _ hn, Vec.at_lt _ Nat.one_pos]
  exact holds_inj hw (get_holds hw m p (⟨0, hn⟩ : Fin n)) (get_holds hw m p (⟨0, Nat.one_pos⟩ : Fin 1))

theorem i_load_splat_int_eq (h : c.Ok) (gnuc : Bool) (hw : IsW w) (hr : c.hasInt w r = true) (junk : Nat → BitVec w) {m : Mem} {p : Nat}
    (hp : p % (w / 8) = 0) (ha : m.Acc p (c.splatLen .int w)) (hx : c.SplatOk .int w ((get w 1 m p).at_ 0)) :
    i_load_splat_int c gnuc r junk m p = some (Vec.splat ((get w 1 m p).at_ 0)) := by
  have hW0 : 0 < w := by rcases hw with rfl | rfl | rfl | rfl <;> decide
  have ha' : m.Acc p (w / 8) := Acc.sub' ha (le_refl _) (by have := splatLen_le c .int hw; omega)
  have e1 := ld1_eq hW0 ha'
  have e2 := deref_eq hW0 hp ha'
  obtain ⟨v, e3, hv⟩ := load1_u_eq hw junk hp ha'
  have hL : 0 < 128 / w := lanes_pos hw .r128
  have hal : i_splat c gnuc .int .r128 0 v = some (Vec.splat ((get w 1 m p).at_ 0)) :=
    (splat_zero h gnuc (k := .int) hw _).trans (congrArg (fun t => some (Vec.splat t)) hv)
  unfold i_load_splat_int
  cases r
  · dsimp only
    have hset := i_set_splat_int_eq (r := .r128) h gnuc hw hr junk hx
    by_cases g : w = 8 ∨ w = 16
    · rw [if_pos g]
      refine ite_cases (fun _ => (bind_of e2 _).trans (congrArg some (make_vec_one _))) fun b1 => ite_cases (fun _ => (bind_of e2 _).trans hset) fun b2 =>
        ite_cases (fun _ => (bind_of e1 _).trans rfl) fun b3 => ite_cases (fun _ => (bind_of e3 _).trans hal) fun b4 => ?_
      exfalso; clear hal hset hv e1 e2 e3 g ha ha' hx; cfg_absurd h
    rw [if_neg g]
    obtain rfl | rfl : w = 32 ∨ w = 64 := by rcases hw with e | e | e | e <;> simp_all
    · refine (dif_pos rfl).trans ?_
      refine ite_cases (fun _ => (bind_of e2 _).trans (congrArg some (make_vec_one _))) fun b1 => ite_cases (fun _ => (bind_of e2 _).trans ?_) fun b2 =>
        ite_cases (fun _ => (bind_of e1 _).trans rfl) fun b3 => ite_cases (fun _ => (bind_of e3 _).trans hal) fun b4 =>
        ite_cases (fun _ => (bind_of e2 _).trans hset) fun b5 => ?_
      · exact (perm4_zero' h gnuc _).trans (congrArg (fun t => some (Vec.splat t)) (ofLow_zero _ (by decide)))
      · exfalso; clear hal hset hv e1 e2 e3 g ha ha' hx; cfg_absurd h
    · refine (dif_neg (by decide)).trans ((dif_pos rfl).trans ?_)
      refine ite_cases (fun _ => (bind_of e1 _).trans ?_) fun b1 => ite_cases (fun _ => (bind_of e1 _).trans rfl) fun b2 =>
        ite_cases (fun g7 => ?_) fun b3 => ite_cases (fun _ => (bind_of e2 _).trans (congrArg some (make_vec_one _))) fun b4 =>
        ite_cases (fun _ => (bind_of e2 _).trans hset) fun b5 => ?_
      · exact (perm2_zero h _).trans (congrArg (fun t => some (Vec.splat t)) (ofLow_zero _ (by decide)))
      · have hl : c.splatLen .int 64 = 16 := if_pos ⟨rfl, g7⟩
        rw [hl] at ha
        have e4 := i_load_u_eq h (k := .int) iw64 (r := .r128) (n := 2) (by rfl) (by rfl) hp
          (⟨ha, fun q => absurd (h.vsx207 g7) (by rw [q.2]; decide)⟩ : c.AccU .r128 m p)
        refine (bind_of e4 _).trans ((splat_zero h gnuc (k := .int) iw64 _).trans ?_)
        exact congrArg (fun t => some (Vec.splat t)) (get_zero iw64 (by decide) m p)
      · exfalso; clear hal hset hv e1 e2 e3 g ha ha' hx; cfg_absurd h
  · refine (if_pos hr).trans (ite_cases (fun _ => (bind_of e2 _).trans (i_set_splat_int_eq (r := .r256) h gnuc hw hr junk hx)) fun _ =>
      (bind_of e1 _).trans (congrArg some (bcast_ofLow _ hL)))
  · refine ite_cases (fun g => ?_) fun g => ?_
    · exact (if_pos (by rw [← hr]; unfold Cfg.hasInt; dsimp only; rw [if_pos g])).trans
        ((bind_of e2 _).trans (i_set_splat_int_eq (r := .r512) h gnuc hw hr junk hx))
    · exact (if_pos (by rw [← hr]; unfold Cfg.hasInt; dsimp only; rw [if_neg g])).trans ((bind_of e1 _).trans (congrArg some (bcast_ofLow _ hL)))

theorem i_load_splat_flt_eq (h : c.Ok) (gnuc : Bool) (hw : Kind.flt.okW w) (hr : c.hasVec .flt w r = true) (junk : Nat → BitVec w) {m : Mem} {p : Nat}
    (hp : p % (w / 8) = 0) (ha : m.Acc p (c.splatLen .flt w)) :
    i_load_splat_flt c gnuc r junk m p = some (Vec.splat ((get w 1 m p).at_ 0)) := by
  have hW := hw.isW
  have hW0 : 0 < w := by rcases hW with rfl | rfl | rfl | rfl <;> decide
  have ha' : m.Acc p (w / 8) := Acc.sub' ha (le_refl _) (by have := splatLen_le c .flt hW; omega)
  have e1 := ld1_eq hW0 ha'
  have e2 := deref_eq hW0 hp ha'
  obtain ⟨v, e3, hv⟩ := load1_u_eq hW junk hp ha'
  have hL : 0 < 128 / w := lanes_pos hW .r128
  have hal : i_splat c gnuc .flt .r128 0 v = some (Vec.splat ((get w 1 m p).at_ 0)) :=
    (splat_zero h gnuc (k := .flt) hw _).trans (congrArg (fun t => some (Vec.splat t)) hv)
  unfold i_load_splat_flt
  cases r
  · dsimp only
    have hset := i_set_splat_flt_eq (r := .r128) h gnuc hw hr junk ((get w 1 m p).at_ 0)
    rcases hw with rfl | rfl
    · refine (dif_pos rfl).trans ?_
      refine ite_cases (fun _ => (bind_of e2 _).trans (congrArg some (make_vec_one _))) fun b1 => ite_cases (fun _ => (bind_of e1 _).trans rfl) fun b2 =>
        ite_cases (fun _ => (bind_of e1 _).trans ?_) fun b3 => ite_cases (fun _ => (bind_of e1 _).trans rfl) fun b4 =>
        ite_cases (fun _ => (bind_of e3 _).trans hal) fun b5 => ite_cases (fun _ => (bind_of e2 _).trans hset) fun b6 => ?_
      · exact (perm4_zero' h gnuc _).trans (congrArg (fun t => some (Vec.splat t)) (ofLow_zero _ (by decide)))
      · exfalso; clear hal hset hv e1 e2 e3 ha ha'; cfg_absurd h
    · refine (dif_neg (by decide)).trans ((dif_pos rfl).trans ?_)
      refine ite_cases (fun _ => (bind_of e1 _).trans rfl) fun b1 => ite_cases (fun _ => (bind_of e1 _).trans ?_) fun b2 =>
        ite_cases (fun _ => (bind_of e1 _).trans rfl) fun b3 => ite_cases (fun g6 => ?_) fun b4 =>
        ite_cases (fun _ => (bind_of e2 _).trans hset) fun b5 => ite_cases (fun _ => (bind_of e2 _).trans (congrArg some (make_vec_one _))) fun b6 => ?_
      · exact (perm2_zero h _).trans (congrArg (fun t => some (Vec.splat t)) (ofLow_zero _ (by decide)))
      · have hl : c.splatLen .flt 64 = 16 := if_pos ⟨rfl, g6⟩
        rw [hl] at ha
        have e4 := i_load_u_eq h (k := .flt) (Or.inr rfl) (r := .r128) (n := 2) (by rfl) (by rfl) hp
          (⟨ha, fun q => absurd g6 (by rw [q.2]; decide)⟩ : c.AccU .r128 m p)
        refine (bind_of e4 _).trans ((splat_zero h gnuc (k := .flt) (Or.inr rfl) _).trans ?_)
        exact congrArg (fun t => some (Vec.splat t)) (get_zero iw64 (by decide) m p)
      · exfalso; clear hal hset hv e1 e2 e3 ha ha'; cfg_absurd h
  · exact (if_pos hr).trans ((bind_of e1 _).trans rfl)
  · exact (if_pos hr).trans ((bind_of e1 _).trans (congrArg some (bcast_ofLow _ hL)))

theorem load_splat_eq (h : c.Ok) (gnuc : Bool) {k : Kind} (hw : k.okW w) (hN : c.KLen k w N) (junk : Nat → BitVec w) {m : Mem} {p : Nat}
    (hp : p % (w / 8) = 0) (ha : m.Acc p (c.splatLen k w)) (hx : c.SplatOk k w ((get w 1 m p).at_ 0)) :
    load_splat c gnuc k w N junk m p = some (Vec.splat ((get w 1 m p).at_ 0)) := by
  obtain ⟨hr, K, -, e⟩ := KLen.regs h hw hN
  unfold load_splat
  generalize c.regK k w N = r at *
  refine catM_regs (lanes_pos hw.isW r) e fun j hj => ?_
  have : i_load_splat c gnuc k r junk m p = some (Vec.splat ((get w 1 m p).at_ 0)) := by
    cases k
    · exact i_load_splat_int_eq h gnuc hw hr junk hp ha hx
    · exact i_load_splat_flt_eq h gnuc hw hr junk hp ha
  rw [this]
  refine congrArg some (funext fun i => ?_)
  unfold Hw.part
  have hi : j * r.lanes w + i.val < N := by
    rw [e]
    calc j * r.lanes w + i.val < (j + 1) * r.lanes w := by rw [Nat.add_mul, Nat.one_mul]; have := i.isLt; omega
      _ ≤ K * r.lanes w := Nat.mul_le_mul_right _ hj
  rw [Vec.at_lt _ hi]; rfl

/-! ## The properties -/

/-- Every lane of `splat<V>(x)`, for an integer `x` and an integer vector, is `x` modulo 2^w. The 8-bit case excludes values whose
low byte is at least 128 on x86 without AVX2, see `C43_splat8_ub`. -/
theorem C43_splat_int (h : c.Ok) (gnuc : Bool) (hw : IsW w) (hN : c.VLen w N) (junk : Nat → BitVec w) (x : C.Val)
    (hx : w = 8 → c.sse2 = true → c.avx2 = false → x.v % 256 < 128) :
    ∃ res, splatInt c gnuc .int w N junk x = some res ∧ ∀ i : Fin N, res i = BitVec.ofInt w x.v := by
  refine ⟨_, set_splat_eq h gnuc (k := .int) hw hN junk (x := C.toLane w x) ?_, fun i => rfl⟩
  rintro - rfl g1 g2
  have := hx rfl g1 g2
  show (BitVec.ofInt 8 x.v).toNat < 128
  rw [BitVec.toNat_ofInt]
  norm_num
  omega

/-- Every lane of `splat<V>(x)`, for an integer `x` and a floating-point vector, is the number nearest to `x`. -/
theorem C43_splat_float (h : c.Ok) (gnuc : Bool) (hw : Kind.flt.okW w) (hN : c.FLen w N) (junk : Nat → BitVec w) (x : C.Val) :
    ∃ res, splatInt c gnuc .flt w N junk x = some res ∧ ∀ i : Fin N, res i = Fp.ofInt w x.v :=
  ⟨_, set_splat_eq h gnuc (k := .flt) hw hN junk (x := cvInt w x) (fun e => absurd e (by decide)), fun i => rfl⟩

/-- Every lane of `splat<V>(x)`, for `x` of the element type, is `x`. -/
theorem C43_splat_elem (h : c.Ok) (gnuc : Bool) {k : Kind} (hw : k.okW w) (hN : c.KLen k w N) (junk : Nat → BitVec w) (x : BitVec w)
    (hx : k = .int → w = 8 → c.sse2 = true → c.avx2 = false → x.toNat < 128) :
    ∃ res, set_splat c gnuc k w N junk x = some res ∧ ∀ i : Fin N, res i = x :=
  ⟨_, set_splat_eq h gnuc hw hN junk hx, fun i => rfl⟩

/-- On x86 without AVX2 a splat of an 8-bit value of 128 or more multiplies `v0 * 0x01010101` beyond the range of `int`. -/
theorem C43_splat8_ub (h : c.Ok) (gnuc : Bool) (h1 : c.sse2 = true) (h2 : c.avx2 = false) (junk : Nat → BitVec 8) {x : BitVec 8}
    (hx : 128 ≤ x.toNat) : i_set_splat c gnuc .int .r128 junk x = none := by
  show i_set_splat_int c gnuc .r128 junk x = none
  unfold i_set_splat_int
  dsimp only
  have h0 : c.null = false := by cases g : c.null; · rfl
                                 · exfalso; cfg_absurd h
  rw [if_pos rfl, if_neg (by rw [h0]; decide), if_neg (by rw [h2]; decide), if_pos h1]
  have : C.mul (C.lane false x) ⟨C.int32, 0x01010101⟩ = none := by
    revert x; decide +kernel
  rw [this]; rfl

/-- `load_splat<V>(p)`: every lane is the element stored at `p`, which must be aligned to its size. -/
theorem C51_load_splat (h : c.Ok) (gnuc : Bool) {k : Kind} (hw : k.okW w) (hN : c.KLen k w N) (junk : Nat → BitVec w) (m : Mem) {p : Nat}
    (hp : p % (w / 8) = 0) (ha : m.Block p (c.splatLen k w)) {x : BitVec w} (hm : Holds m.byte p x)
    (hx : k = .int → w = 8 → c.sse2 = true → c.avx2 = false → x.toNat < 128) :
    ∃ res, load_splat c gnuc k w N junk m p = some res ∧ ∀ i : Fin N, res i = x := by
  have e : (get w 1 m p).at_ 0 = x := by
    rw [Vec.at_lt _ Nat.one_pos]
    refine holds_inj hw.isW (get_holds hw.isW m p (⟨0, Nat.one_pos⟩ : Fin 1)) ?_
    rw [Nat.zero_mul, Nat.add_zero]; exact hm
  subst e
  exact ⟨_, load_splat_eq h gnuc hw hN junk hp (ha.acc (le_refl _) (le_refl _)) hx, fun i => rfl⟩

/-- Except for 64-bit elements on VSX, `load_splat` reads the element only. -/
theorem C51_reads_element (c : Cfg) (k : Kind) (w : Nat) (hv : w = 64 → c.vsx206 = false ∧ c.vsx207 = false) : c.splatLen k w = w / 8 := by
  unfold Cfg.splatLen
  rw [if_neg]
  rintro ⟨e, g⟩
  obtain ⟨g1, g2⟩ := hv e
  cases k
  · dsimp only at g; rw [g2] at g; exact absurd g (by decide)
  · dsimp only at g; rw [g1] at g; exact absurd g (by decide)

/-- 64-bit elements on VSX: when the eight bytes after the element are not accessible, the load faults. -/
theorem C51_vsx_overread (gnuc : Bool) (junk : Nat → BitVec 64) (m : Mem) {p : Nat} (hb : m.ok (p + 8) = false) :
    load_splat Cfg.vsx207Only gnuc .int 64 2 junk m p = none := by
  have e : i_load_splat Cfg.vsx207Only gnuc .int .r128 junk m p = none := by
    show i_load_splat_int Cfg.vsx207Only gnuc .r128 junk m p = none
    unfold i_load_splat_int
    dsimp only
    rw [if_neg (by decide)]
    refine (dif_neg (by decide)).trans ((dif_pos rfl).trans ?_)
    refine (if_neg (by decide)).trans ((if_neg (by decide)).trans ((if_pos (by decide)).trans ?_))
    have : (i_load_u Cfg.vsx207Only .int .r128 m p : Option (Vec 64 2)) = none := by
      unfold i_load_u
      dsimp only
      rw [if_neg (by decide), if_neg (by decide), if_neg (by decide), if_neg (by decide), if_neg (by decide), if_pos (by decide)]
      unfold i_load_u8
      rw [if_neg (by decide), if_neg (by decide), if_neg (by decide), if_pos (by decide)]
      unfold Mem.ldv
      rw [rd_none (x := p + 8) (by omega) (by omega) hb]; rfl
    refine (congrArg (fun t => Option.bind t _) this).trans rfl
  unfold load_splat
  show (lanesM fun i : Fin 2 => (i_load_splat Cfg.vsx207Only gnuc .int .r128 junk m p).map (·.at_ (i.val % 2))) = none
  rw [e]
  rfl

/-- Three SSE2 registers of signed -1. -/
example (junk : Nat → BitVec 32) : ∃ res : Vec 32 12, splatInt Cfg.sse2Only false .int 32 12 junk ⟨C.int32, -1⟩ = some res ∧ ∀ i, res i = 0xffffffff := by
  obtain ⟨res, e, hv⟩ := C43_splat_int Cfg.sse2Only_ok false iw32 (.inr ⟨3, by decide, rfl⟩) junk ⟨C.int32, -1⟩ (fun e => absurd e (by decide))
  exact ⟨res, e, fun i => (hv i).trans (by decide +kernel)⟩

/-- 127 in bytes on SSE2, 200 on AVX2. -/
example (junk : Nat → BitVec 8) : ∃ res : Vec 8 16, splatInt Cfg.sse2Only false .int 8 16 junk ⟨C.int32, 127⟩ = some res ∧ ∀ i, res i = 127 := by
  obtain ⟨res, e, hv⟩ := C43_splat_int Cfg.sse2Only_ok false isW8 (.inl ⟨.r128, rfl, rfl⟩) junk ⟨C.int32, 127⟩ (fun _ _ _ => by decide)
  exact ⟨res, e, fun i => (hv i).trans (by decide +kernel)⟩
example (junk : Nat → BitVec 8) : ∃ res : Vec 8 32, splatInt Cfg.avx2Only false .int 8 32 junk ⟨C.int32, 200⟩ = some res ∧ ∀ i, res i = 200 := by
  obtain ⟨res, e, hv⟩ := C43_splat_int Cfg.avx2Only_ok false isW8 (.inl ⟨.r256, rfl, rfl⟩) junk ⟨C.int32, 200⟩ (fun _ _ g => absurd g (by decide))
  exact ⟨res, e, fun i => (hv i).trans (by decide +kernel)⟩

/-- The halfword at address 38 on AltiVec. -/
example (junk : Nat → BitVec 16) : ∃ res : Vec 16 8, load_splat Cfg.altivecOnly false .int 16 8 junk Mem.demo 38 = some res ∧ ∀ i, res i = 0x2726 :=
  C51_load_splat Cfg.altivecOnly_ok false (k := .int) iw16 (.inl ⟨.r128, rfl, rfl⟩) junk Mem.demo (by decide) (demo_block (by decide) (by decide))
    (x := 0x2726) (by show ∀ j, j < 2 → _; decide +kernel) (fun _ e => absurd e (by decide))

end Simdpp
