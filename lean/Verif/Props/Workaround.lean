import Verif.Model.Workaround
import Verif.Props.Compare
import Verif.Props.Bytes16
import Verif.Props.MakeConst
import Verif.Props.MemPart
import Verif.Props.Samples

/-!
# C67: code selected by the compiler's version

Where the headers replace a piece of code because of a compiler bug, the replacement computes what the original computes, or does not
compile.
-/

namespace Simdpp
open Spec

variable {w n N M K : Nat} {c : Cfg} {r : Reg}

theorem Cfg.Ok.xopComOff (h : c.Ok) : c.xopComOff.Ok where
  sse3 := h.sse3
  ssse3 := h.ssse3
  sse41 := h.sse41
  popcnt := h.popcnt
  avx := h.avx
  avx2 := h.avx2
  fma3 := h.fma3
  fma4 := h.fma4
  xop := fun e => absurd e (by simp [Cfg.xopComOff])
  avx512f := h.avx512f
  avx512bw := h.avx512bw
  avx512dq := h.avx512dq
  avx512vl := h.avx512vl
  neonFltSp := h.neonFltSp
  vsx206 := h.vsx206
  vsx207 := h.vsx207
  null := h.null
  neon64 := h.neon64
  excl := h.excl

theorem hasInt_xopComOff : c.xopComOff.hasInt w r = c.hasInt w r := by cases r <;> rfl

theorem Mask.of_xopComOff (f : Fin n → Bool) : (Mask.of c.xopComOff .int r f : Mask w n) = Mask.of c .int r f := by
  unfold Mask.of Cfg.maskBits
  rfl

/-- C67 (comparisons without the XOP instructions): the documented result. -/
theorem C67_cmp_xop_workaround (h : c.Ok) (hw : IsW w) (hr : c.hasInt w r = true) (R : Rel) (s : Bool)
    (hs : cmpSupported c.xopComOff R w r) (hn : w = 64 → n % 2 = 0) (a b : Vec w n) :
    ∃ m, cmpInt c.xopComOff R s r a b = some m ∧
      ∀ i, m.unmask i = if R.onInt (val s (a i)) (val s (b i)) = true then BitVec.allOnes w else 0 := by
  refine ⟨_, cmpInt_eq h.xopComOff hw (hasInt_xopComOff.trans hr) R s hs hn a b, fun i => ?_⟩
  rw [Mask.unmask_of]; rfl

/-- C67: the workaround does not change the result of a comparison that both builds have. -/
theorem C67_cmp_xop_same (h : c.Ok) (hw : IsW w) (hr : c.hasInt w r = true) (R : Rel) (s : Bool)
    (hs : cmpSupported c R w r) (hs' : cmpSupported c.xopComOff R w r) (hn : w = 64 → n % 2 = 0) (a b : Vec w n) :
    cmpInt c.xopComOff R s r a b = cmpInt c R s r a b := by
  rw [cmpInt_eq h hw hr R s hs hn, cmpInt_eq h.xopComOff hw (hasInt_xopComOff.trans hr) R s hs' hn, Mask.of_xopComOff]

/-- All comparisons of 8-, 16- and 32-bit lanes exist with the workaround. -/
theorem C67_cmp_xop_narrow (hw : w ≠ 64) (R : Rel) : cmpSupported c.xopComOff R w r :=
  ⟨fun e => absurd e.1 (by simp [Cfg.xopComOff]), fun e => absurd e hw⟩

/-- With the workaround an XOP build without AVX2 loses the ordered comparisons of 64-bit lanes. -/
theorem C67_cmp_xop_lost (h : c.Ok) (hx : c.xop = true) (h2 : c.avx2 = false) (s : Bool) (R : Rel)
    (hR : R ≠ .eq ∧ R ≠ .ne) (a b : Vec 64 n) : cmpInt c.xopComOff R s .r128 a b = none := by
  have hs : c.sse2 = true := h.sse3 (h.xop hx)
  have hv : c.avx512vl = false := by
    by_contra e
    have := h.avx512f (h.avx512vl (by simpa using e))
    rw [h2] at this; cases this
  have hn : c.null = false := by rw [h.null, hs]; rfl
  obtain ⟨e1, e2, e3⟩ := h.excl.1 hs
  have hv7 : c.vsx207 = false := by
    by_contra e
    have := h.vsx206 (h.vsx207 (by simpa using e))
    rw [e2] at this; cases this
  cases R <;> first | exact absurd rfl hR.1 | exact absurd rfl hR.2 | skip
  all_goals
    simp only [cmpInt, i_cmp_lt, i_cmp_le, i_cmp_gt, i_cmp_ge, Cfg.xopComOff, h2, hv, hn, e1, e2, e3, hv7, Cfg.neon64, Cfg.neon32]
    simp

theorem byte_lt16 : ∀ x : BitVec 8, x.toNat < 32 → (decide (val true x < val true (0x10 : BitVec 8)) = !decide (16 ≤ x.toNat % 32)) := by
  decide +kernel

theorem i_shuffle_bytes16_clang_eq (h : c.Ok) (hr : c.hasInt 8 r = true)
    (hs : c.sse2 = true → (c.ssse3 = true ∨ c.xop = true)) (hn : n = r.lanes 8)
    (a b m : Vec 8 n) (hm : ∀ i, (m i).toNat < 32) :
    i_shuffle_bytes16_clang c r a b m = some (selB a b m) := by
  unfold i_shuffle_bytes16_clang
  split_ifs with g
  · obtain ⟨rfl, -⟩ := g
    rw [i_cmp_lt_eq h isW8 hr true (fun h => absurd h (by decide)) (fun h => absurd h (by decide))
      (fun h => absurd h (by decide))]
    simp only [Option.bind_eq_bind, Option.bind_some]
    rw [i_blend_vm_eq h (k := .int) isW8 (r := .r128) hr]
    rw [← pick_eq a b m (fun i => by have := hm i; unfold okZ; omega) _ fun i => rfl]
    congr 1
    funext i
    rw [show decide (val true (m i) < val true ((Vec.splat 0x10 : Vec 8 n) i)) = _ from byte_lt16 (m i) (hm i)]
    cases decide (16 ≤ (m i).toNat % 32) <;> rfl
  · exact i_shuffle_bytes16_eq h hr hs hn a b m hm

/-- C67 (`shuffle_bytes16` of clang 3.6 and 3.7): bytes of the mask below 16 select from `a`, the others from `b`, in each
block of 16 bytes. -/
theorem C67_shuffle_bytes16_clang (h : c.Ok) (hw : IsW w) (hr : c.hasInt 8 r = true)
    (hs : c.sse2 = true → (c.ssse3 = true ∨ c.xop = true))
    (a b mask : Fin K → Vec w (r.lanes w)) (d : Fin K → Vec 8 (r.lanes 8))
    (hm : AllBytes (· < 32) mask (K * r.lanes 8)) :
    ∃ res, bytes16_wide3 (i_shuffle_bytes16_clang c r) (r.lanes w) a b mask d = some res ∧
      ∀ q j, j < 16 → q * 16 + j < K * r.lanes 8 →
        let x := ((bytes mask (K * r.lanes 8)).at_ (q * 16 + j)).toNat
        (bytes res (K * r.lanes 8)).at_ (q * 16 + j) =
          if x < 16 then (bytes a (K * r.lanes 8)).at_ (q * 16 + x)
          else (bytes b (K * r.lanes 8)).at_ (q * 16 + (x - 16)) := by
  obtain ⟨res, e, p⟩ := wide3_eq (isW_pos hw) (lanes_mul hw r) (lanes8 r) (i_shuffle_bytes16_clang c r)
    (· < 32) (fun x hx => by unfold okZ; omega)
    (fun a b m hm => i_shuffle_bytes16_clang_eq h hr hs rfl a b m hm) a b mask d hm
  refine ⟨res, e, fun q j hj hq => ?_⟩
  have := hm _ hq
  dsimp only
  rw [p, selB_block hj hq, if_neg (by omega)]

/-- The two texts agree on every legal mask. -/
theorem C67_shuffle_bytes16_same (h : c.Ok) (hr : c.hasInt 8 r = true)
    (hs : c.sse2 = true → (c.ssse3 = true ∨ c.xop = true)) (a b m : Vec 8 (r.lanes 8)) (hm : ∀ i, (m i).toNat < 32) :
    i_shuffle_bytes16_clang c r a b m = i_shuffle_bytes16 c r a b m := by
  rw [i_shuffle_bytes16_clang_eq h hr hs rfl a b m hm, i_shuffle_bytes16_eq h hr hs rfl a b m hm]

/-! ### 64-bit constants for 32-bit MSVC -/

theorem splitArgs_eq (v : C.Val) :
    splitArgs v = some [(C.toLane 64 v).extractLsb' 32 32, (C.toLane 64 v).setWidth 32] := by
  have e : (C.cast C.uint64 v) = ⟨C.uint64, ((C.toLane 64 v).toNat : Int)⟩ := by
    unfold C.cast C.wrap C.toLane
    rw [BitVec.toNat_ofInt]
    simp [C.uint64]
    omega
  unfold splitArgs
  rw [e]
  have hlt := (C.toLane 64 v).isLt
  generalize C.toLane 64 v = X at *
  have e1 : C.shr ⟨C.uint64, (X.toNat : Int)⟩ ⟨C.int32, ((32 : Nat) : Int)⟩ = some ⟨C.uint64, (X.toNat : Int) / 2 ^ 32⟩ := by
    refine C.shr_inR (k := 32) (u := C.uint64) rfl (by decide) ?_ (by decide) ?_ (by decide)
    · constructor
      · show (0 : Int) ≤ _; omega
      · show (X.toNat : Int) ≤ 2 ^ 64 - 1; omega
    · constructor <;> decide
  have e2 : C.band ⟨C.uint64, (X.toNat : Int)⟩ ⟨C.uint32, 0xffffffff⟩ = ⟨C.uint64, ((X &&& 0xffffffff#64).toNat : Int)⟩ := by
    show C.Val.mk C.uint64 ((BitVec.ofInt 64 (X.toNat : Int) &&& 0xffffffff#64).toNat : Int) = _
    rw [BitVec.ofInt_natCast, BitVec.ofNat_toNat, BitVec.setWidth_eq]
  refine (bind_of e1 _).trans ?_
  rw [e2]
  refine congrArg some ?_
  have a1 : C.toLane 32 ⟨C.uint64, (X.toNat : Int) / 2 ^ 32⟩ = X.extractLsb' 32 32 := by
    show BitVec.ofInt 32 ((X.toNat : Int) / 2 ^ 32) = _
    rw [show (X.toNat : Int) / 2 ^ 32 = ((X.toNat / 2 ^ 32 : Nat) : Int) by push_cast; rfl, BitVec.ofInt_natCast]
    apply BitVec.eq_of_toNat_eq
    simp [BitVec.extractLsb'_toNat, Nat.shiftRight_eq_div_pow]
  have a2 : C.toLane 32 ⟨C.uint64, ((X &&& 0xffffffff#64).toNat : Int)⟩ = X.setWidth 32 := by
    show BitVec.ofInt 32 ((X &&& 0xffffffff#64).toNat : Int) = _
    rw [BitVec.ofInt_natCast]
    apply BitVec.eq_of_toNat_eq
    rw [BitVec.toNat_ofNat, BitVec.toNat_setWidth, BitVec.toNat_and]
    show (X.toNat &&& (2 ^ 32 - 1)) % 2 ^ 32 = _
    rw [Nat.and_two_pow_sub_one_eq_mod, Nat.mod_mod]
  rw [a1, a2]

/-- The two halves of each 64-bit lane, low half first, are that lane. -/
theorem halves_recast {k : Nat} (f : Vec 32 (2 * k)) (A : Nat → BitVec 64)
    (h0 : ∀ i (hi : i < k), f ⟨2 * i, by omega⟩ = (A i).setWidth 32)
    (h1 : ∀ i (hi : i < k), f ⟨2 * i + 1, by omega⟩ = (A i).extractLsb' 32 32) :
    (f.recast 64 k : Vec 64 k) = fun i => A i.val := by
  funext i
  apply BitVec.eq_of_getLsbD_eq
  intro b hb
  have hi := i.isLt
  rw [Vec.recast_getLsbD]
  by_cases g : b < 32
  · rw [show i.val * 64 + b = (2 * i.val) * 32 + b by ring, Vec.bit_eq f ⟨2 * i.val, by omega⟩ g, h0 _ hi]
    simp [hb, g]
  · rw [show i.val * 64 + b = (2 * i.val + 1) * 32 + (b - 32) by omega,
      Vec.bit_eq f ⟨2 * i.val + 1, by omega⟩ (by omega), h1 _ hi]
    rw [BitVec.getLsbD_extractLsb', show 32 + (b - 32) = b by omega]
    simp [hb, show b - 32 < 32 by omega]

theorem i_make_const64_msvc_eq (h : c.Ok) [NeZero M] (hr : c.hasInt 64 r = true) (hn : n = r.lanes 64)
    (e : Fin M → C.Val) (hT : ArgTy M e) {off : Nat} (ho : off % r.lanes 64 = 0) :
    i_make_const64_msvc c r e off = some (fun i : Fin n => C.toLane 64 (cval e (off + i.val))) := by
  have hw : IsW 64 := Or.inr (Or.inr (Or.inr rfl))
  cases r
  · unfold i_make_const64_msvc
    dsimp only
    refine ite_cases (fun _ => ?_) fun _ => i_make_const_int_eq h hw hr hn e hT ho
    obtain rfl : n = 2 := hn
    rw [splitArgs_eq, splitArgs_eq]
    refine congrArg some (halves_recast (k := 2) _ (fun i => C.toLane 64 (cval e (off + i))) ?_ ?_)
    all_goals
      intro i hi
      match i, hi with
      | 0, _ => rfl
      | 1, _ => rfl
  · obtain rfl : n = 4 := hn
    have h2 : c.avx2 = true := hr
    unfold i_make_const64_msvc
    dsimp only
    rw [if_pos h2, splitArgs_eq, splitArgs_eq, splitArgs_eq, splitArgs_eq]
    refine congrArg some (halves_recast (k := 4) _ (fun i => C.toLane 64 (cval e (off + i))) ?_ ?_)
    all_goals
      intro i hi
      match i, hi with
      | 0, _ => rfl
      | 1, _ => rfl
      | 2, _ => rfl
      | 3, _ => rfl
  · exact i_make_const_int_eq h hw hr hn e hT ho

theorem make_const64_msvc_eq (h : c.Ok) [NeZero M] (hN : c.VLen 64 N) (e : Fin M → C.Val) (hT : ArgTy M e) :
    make_const64_msvc c N e = some (fun i : Fin N => C.toLane 64 (cval e i.val)) := by
  have hw : IsW 64 := Or.inr (Or.inr (Or.inr rfl))
  obtain ⟨hr, K, -, eN⟩ := KLen.regs h (k := .int) hw hN
  unfold make_const64_msvc
  generalize c.regK .int 64 N = r at *
  refine catM_regs (lanes_pos hw r) eN fun j hj => ?_
  rw [i_make_const64_msvc_eq h hr rfl e hT (by rw [Nat.zero_add]; exact Nat.mul_mod_right _ _)]
  refine congrArg some ?_
  rw [← part_fn (fun i => C.toLane 64 (cval e i)) eN hj]
  funext i; rw [Nat.zero_add]

/-- C67 (`make_uint` to 64-bit lanes, 32-bit MSVC): lane `i` is argument `i mod M`. -/
theorem C67_make_uint64_msvc (h : c.Ok) [NeZero M] (hN : c.VLen 64 N) (e : Fin M → BitVec 64) :
    ∃ res, make_uint64_msvc c N e = some res ∧ ∀ i : Fin N, res i = e (Fin.ofNat M i.val) := by
  refine ⟨_, make_const64_msvc_eq h hN _ (Or.inr ⟨C.uint64, Or.inl rfl, fun _ => rfl⟩), fun i => ?_⟩
  show BitVec.ofInt 64 (((e (Fin.ofNat M i.val)).toNat : Nat) : Int) = _
  rw [BitVec.ofInt_natCast, BitVec.ofNat_toNat, BitVec.setWidth_eq]

/-- C67 (`make_int` to 64-bit lanes, 32-bit MSVC): lane `i` is argument `i mod M`. -/
theorem C67_make_int64_msvc (h : c.Ok) [NeZero M] (hN : c.VLen 64 N) (e : Fin M → BitVec 64) :
    ∃ res, make_int64_msvc c N e = some res ∧ ∀ i : Fin N, res i = e (Fin.ofNat M i.val) := by
  refine ⟨_, make_const64_msvc_eq h hN _ (Or.inr ⟨C.int64, Or.inr rfl, fun _ => rfl⟩), fun i => ?_⟩
  exact BitVec.ofInt_toInt

/-! ### blend, load_u -/

/-- C67 (`blend` by a vector with the clang text): on lane masks, `on` where the mask lane is all ones, else `off`. -/
theorem C67_blend_clang (h : c.Ok) {k : Kind} (hw : k.okW w) (hr : c.hasVec k w r = true) (on off : Vec w n) (f : Fin n → Bool) :
    i_blend_clang c k r on off (maskVec w f) = some (fun i => if f i then on i else off i) := by
  unfold i_blend_clang
  refine ite_cases (fun g => ?_) fun _ => i_blend_eq h hw hr on off f
  obtain ⟨-, -, rfl, -⟩ := g
  refine congrArg some (funext fun i => ?_)
  unfold Hw.blendv maskVec maskLane
  cases f i <;> rfl

/-- C67 (`load_u` of the Intel compiler): the bytes at `p`, in order, for every alignment of `p` the element type has. -/
theorem C67_load_u_icc (h : c.Ok) {k : Kind} (hw : k.okW w) (hN : c.KLen k w N) (m : Mem) {p : Nat} (hp : p % (w / 8) = 0)
    (ha : m.Block p (N * (w / 8))) (hv : c.altivec = true → c.vsx206 = false → m.Block (p / 16 * 16) (N * (w / 8) + 16)) :
    ∃ v : Vec w N, load_u_icc c k w N m p = some v ∧ ∀ i : Fin N, Holds m.byte (p + i.val * (w / 8)) (v i) := by
  refine ⟨Mem.get w N m p, ?_, fun i => Mem.get_holds hw.isW m p i⟩
  unfold load_u_icc
  refine ite_cases (fun g => ?_) fun _ => load_u_eq h hw hN hp ha hv
  obtain ⟨hr, K, -, e⟩ := KLen.regs h hw hN
  rw [g.1] at hr e
  refine catM_regs (lanes_pos hw.isW .r256) e fun j hj => ?_
  have := reg_sub hw.isW e hj
  have e32 : Reg.r256.bytes = 32 := rfl
  have h16 : 128 / w * (w / 8) = 16 := by rcases hw.isW with rfl | rfl | rfl | rfl <;> rfl
  have hl : Reg.r256.lanes w = 2 * (128 / w) := by rcases hw.isW with rfl | rfl | rfl | rfl <;> rfl
  rw [e32] at this
  refine (bind_of (Mem.ldv_eq (ha.acc (by omega) (by omega))) _).trans
    ((bind_of (Mem.ldv_eq (ha.acc (by omega) (by omega))) _).trans (congrArg some ?_))
  rw [← get_part hw.isW e hj, e32]
  symm
  refine Mem.get_eq hw.isW fun i => ?_
  have hi : i.val < 2 * (128 / w) := Nat.lt_of_lt_of_eq i.isLt hl
  by_cases q : i.val < 128 / w
  · rw [if_pos q, Vec.at_lt _ q]
    exact Mem.get_holds hw.isW m _ (⟨i.val, q⟩ : Fin (128 / w))
  · have q' : i.val - 128 / w < 128 / w := by omega
    rw [if_neg q, Vec.at_lt _ q']
    have := Mem.get_holds hw.isW m (p + j * 32 + 16) (⟨i.val - 128 / w, q'⟩ : Fin (128 / w))
    rw [show p + j * 32 + i.val * (w / 8) = p + j * 32 + 16 + (i.val - 128 / w) * (w / 8) by
      rw [Nat.sub_mul, h16]
      have : 128 / w * (w / 8) ≤ i.val * (w / 8) := Nat.mul_le_mul_right _ (by omega)
      omega]
    exact this

/-! ### examples -/

/-- A build with XOP and AVX. -/
def Cfg.xopAvx : Cfg := { Cfg.avxOnly with xop := true }
theorem Cfg.xopAvx_ok : Cfg.xopAvx.Ok := by constructor <;> decide
/-- A build with SSSE3. -/
def Cfg.ssse3Clang : Cfg := { Cfg.sse2Only with sse3 := true, ssse3 := true }
theorem Cfg.ssse3Clang_ok : Cfg.ssse3Clang.Ok := by constructor <;> decide

/-- Unsigned bytes 200 > 100, with the workaround on a build with XOP. -/
example : ∃ m, cmpInt Cfg.xopAvx.xopComOff .gt false .r128 (Vec.splat 200 : Vec 8 16) (Vec.splat 100) = some m ∧
    ∀ i, m.unmask i = 0xff := by
  obtain ⟨m, e, hv⟩ := C67_cmp_xop_workaround (c := Cfg.xopAvx) (w := 8) (n := 16) (r := .r128) Cfg.xopAvx_ok (Or.inl rfl) rfl .gt false
    (C67_cmp_xop_narrow (by decide) .gt) (fun h => absurd h (by decide)) (Vec.splat 200) (Vec.splat 100)
  exact ⟨m, e, fun i => (hv i).trans (by show (if Rel.gt.onInt (val false (200 : BitVec 8)) (val false (100 : BitVec 8)) = true then BitVec.allOnes 8 else 0) = 255; decide +kernel)⟩

/-- Signed 64-bit `<` exists with XOP and not with the workaround. -/
example (a b : Vec 64 2) : (cmpInt Cfg.xopAvx .lt true .r128 a b).isSome = true ∧
    cmpInt Cfg.xopAvx.xopComOff .lt true .r128 a b = none :=
  ⟨rfl, C67_cmp_xop_lost Cfg.xopAvx_ok rfl rfl true .lt ⟨Rel.noConfusion, Rel.noConfusion⟩ a b⟩

/-- Byte 16 + i of the mask takes byte i of the second operand. -/
example (a b : Vec 8 16) : i_shuffle_bytes16_clang Cfg.ssse3Clang .r128 a b (fun i => BitVec.ofNat 8 (31 - i.val)) =
    i_shuffle_bytes16 Cfg.ssse3Clang .r128 a b (fun i => BitVec.ofNat 8 (31 - i.val)) :=
  C67_shuffle_bytes16_same (r := .r128) Cfg.ssse3Clang_ok rfl (fun _ => Or.inl rfl) a b _ (by decide +kernel)

/-- -2 and 5 in four 64-bit lanes on AVX2. -/
example : ∃ res : Vec 64 4, make_int64_msvc Cfg.avx2Only 4 (fun i : Fin 2 => if i = 0 then -2 else 5) = some res ∧
    res 0 = 0xfffffffffffffffe ∧ res 3 = 5 := by
  obtain ⟨res, e, hv⟩ := C67_make_int64_msvc (c := Cfg.avx2Only) (N := 4) Cfg.avx2Only_ok (Or.inl ⟨.r256, rfl, rfl⟩)
    (fun i : Fin 2 => if i = 0 then -2 else 5)
  exact ⟨res, e, (hv 0).trans rfl, (hv 3).trans rfl⟩

/-- Sixteen floats at an odd multiple of 4 on AVX. -/
example (m : Mem) (ha : m.Block 4 64) : ∃ v : Vec 32 16, load_u_icc Cfg.avxOnly .flt 32 16 m 4 = some v ∧
    Holds m.byte 64 (v 15) := by
  obtain ⟨v, e, hv⟩ := C67_load_u_icc (c := Cfg.avxOnly) (w := 32) (N := 16) (k := .flt) Cfg.avxOnly_ok (Or.inl rfl)
    (Or.inr ⟨2, by decide, rfl⟩) m (p := 4) rfl ha (fun h => absurd h (by decide))
  exact ⟨v, e, hv 15⟩

end Simdpp
