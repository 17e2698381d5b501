import Verif.Model.ScalarBits
import Verif.Props.MakeConst
import Verif.Props.BitwiseLemmas
import Verif.Props.Samples

/-! # C58: scalar operands of the bitwise operations -/

namespace Simdpp
open Spec

variable {c : Cfg} {w N : Nat}

/-! ### Specification -/

/-- The operation on one lane. -/
def BitOp.lane (o : BitOp) (x y : BitVec w) : BitVec w :=
  match o with
  | .and => x &&& y
  | .or => x ||| y
  | .xor => x ^^^ y
  | .andnot => x &&& ~~~y

/-! ### Proofs -/

theorem make_const_bitwise_eq (h : c.Ok) {k : Kind} (hw : k.okW w) (hN : c.KLen k w N) (s : Bool) (t : BitVec 64) :
    make_const_bitwise c k s w N t = some (fun _ => t.setWidth w) := by
  cases k with
  | int =>
    refine (make_const_int_eq h hw hN _ (Or.inl rfl)).trans (congrArg some ?_)
    funext i
    show C.toLane w (C.lane s (t.setWidth w)) = _
    unfold C.toLane C.lane
    cases s
    · rw [if_neg Bool.false_ne_true, BitVec.ofInt_natCast, BitVec.ofNat_toNat, BitVec.setWidth_setWidth_of_le _ le_rfl]
    · rw [if_pos rfl, BitVec.ofInt_toInt]
  | flt => exact make_const_flt_eq h hw hN _ _

theorem BitOp.run_eq (h : c.Ok) {k : Kind} (hw : k.okW w) {r : Reg} (hr : c.hasVec k w r = true) {n : Nat} (o : BitOp) (a b : Vec w n) :
    o.run c k r a b = some (fun i => o.lane (a i) (b i)) := by
  cases o
  · exact i_bit_and_eq h hw hr a b
  · exact i_bit_or_eq h hw hr a b
  · exact i_bit_xor_eq h hw hr a b
  · exact i_bit_andnot_eq h hw hr a b

theorem bitScalar_eq (h : c.Ok) {k : Kind} (hw : k.okW w) (hN : c.KLen k w N) (s : Bool) (o : BitOp) (left : Bool) (a : Vec w N) (q : C.Val) :
    bitScalar c k s o left a q =
      some (fun i => if left then o.lane ((o.arg q).setWidth w) (a i) else o.lane (a i) ((o.arg q).setWidth w)) := by
  obtain ⟨hr, K, -, eN⟩ := KLen.regs h (k := k) hw hN
  unfold bitScalar
  rw [make_const_bitwise_eq h hw hN]
  rw [Option.bind_eq_bind, Option.bind_some]
  dsimp only
  generalize c.regK k w N = r at *
  refine catM_regs (lanes_pos hw.isW r) eN fun j hj => ?_
  have hlt : ∀ i, i < r.lanes w → j * r.lanes w + i < N := by
    intro i hi
    rw [eN]
    calc j * r.lanes w + i < (j + 1) * r.lanes w := by rw [Nat.add_mul]; omega
      _ ≤ K * r.lanes w := Nat.mul_le_mul_right _ hj
  cases left
  · rw [if_neg Bool.false_ne_true, BitOp.run_eq h hw hr]
    refine congrArg some ?_
    funext i
    have := hlt i.val i.isLt
    simp only [Hw.part, Vec.at_, Bool.false_eq_true, if_false]
    rw [dif_pos this, dif_pos this, dif_pos this]
  · rw [if_pos rfl, BitOp.run_eq h hw hr]
    refine congrArg some ?_
    funext i
    have := hlt i.val i.isLt
    simp only [Hw.part, Vec.at_, if_true]
    rw [dif_pos this, dif_pos this, dif_pos this]

/-! ### C58 -/

theorem arg_eq (o : BitOp) (q : C.Val) (hw : IsW w) (hb : q.ty.bits = 32 ∨ q.ty.bits = 64) (hq : C.InR q.ty q.v)
    (hex : o = .xor ∨ w ≤ q.ty.bits ∨ 0 ≤ q.v) : (o.arg q).setWidth w = BitVec.ofInt w q.v := by
  have hw64 : w ≤ 64 := by rcases hw with rfl | rfl | rfl | rfl <;> decide
  have key : ∀ b, w ≤ b → (BitVec.ofInt b q.v).setWidth w = BitVec.ofInt w q.v := by
    intro b hb
    apply BitVec.eq_of_toInt_eq
    rw [BitVec.toInt_setWidth, BitVec.toInt_ofInt, BitVec.toNat_ofInt, Int.toNat_of_nonneg (Int.emod_nonneg _ (by positivity))]
    have hd : (2 : Int) ^ w ∣ 2 ^ b := pow_dvd_pow 2 hb
    rw [Nat.cast_pow, Nat.cast_ofNat]
    have : (q.v % 2 ^ b : Int) % (2 ^ w : Int) = q.v % (2 ^ w : Int) := Int.emod_emod_of_dvd _ hd
    unfold Int.bmod
    push_cast
    rw [this]
  cases o
  case xor => exact key 64 hw64
  all_goals
    show ((BitVec.ofInt q.ty.bits q.v).setWidth 64).setWidth w = _
    rcases hex with he | he | he
    · cases he
    · rw [BitVec.setWidth_setWidth_of_le _ hw64]
      exact key _ he
    · have e : (BitVec.ofInt q.ty.bits q.v).setWidth 64 = BitVec.ofInt 64 q.v := by
        apply BitVec.eq_of_toNat_eq
        obtain ⟨h1, h2⟩ := hq
        have h3 : q.v < 2 ^ q.ty.bits := by
          unfold C.Ty.max at h2
          rcases hb with hb | hb <;> rw [hb] at h2 ⊢ <;> split_ifs at h2 <;> omega
        rw [BitVec.toNat_setWidth, BitVec.toNat_ofInt, BitVec.toNat_ofInt]
        rcases hb with hb | hb <;> rw [hb] at h3 ⊢ <;> omega
      rw [e]
      exact key 64 hw64

/-- C58: in a bitwise operation a scalar stands for its bits, also for floating-point vectors: every lane is combined with the scalar's
two's complement representation in the width of the lane. Excluded: `&`, `|` and `andnot` of 64-bit lanes with a negative scalar of a 32-bit
type (see `C58_negative_int`). -/
theorem C58_scalar_bits (h : c.Ok) {k : Kind} (hw : k.okW w) (hN : c.KLen k w N) (s : Bool) (o : BitOp) (left : Bool) (a : Vec w N)
    (q : C.Val) (hb : q.ty.bits = 32 ∨ q.ty.bits = 64) (hq : C.InR q.ty q.v) (hex : o = .xor ∨ w ≤ q.ty.bits ∨ 0 ≤ q.v) :
    ∃ res, bitScalar c k s o left a q = some res ∧
      ∀ i, res i = if left then o.lane (BitVec.ofInt w q.v) (a i) else o.lane (a i) (BitVec.ofInt w q.v) := by
  refine ⟨_, bitScalar_eq h hw hN s o left a q, fun i => ?_⟩
  rw [arg_eq o q hw.isW hb hq hex]

/-- C58: in the excluded case the scalar is taken modulo 2^32, not 2^64: its upper half is zero instead of ones. -/
theorem C58_negative_int (h : c.Ok) {k : Kind} (hN : c.KLen k 64 N) (s : Bool) (o : BitOp) (ho : o ≠ .xor) (left : Bool) (a : Vec 64 N)
    (q : C.Val) (hb : q.ty.bits = 32) (hq : C.InR q.ty q.v) (hneg : q.v < 0) (hk : k.okW 64) :
    ∃ res, bitScalar c k s o left a q = some res ∧
      (∀ i, res i = if left then o.lane (BitVec.ofInt 64 (q.v + 2 ^ 32)) (a i) else o.lane (a i) (BitVec.ofInt 64 (q.v + 2 ^ 32))) ∧
      BitVec.ofInt 64 (q.v + 2 ^ 32) ≠ BitVec.ofInt 64 q.v := by
  obtain ⟨h1, h2⟩ := hq
  have hlo : -2 ^ 31 ≤ q.v := by
    unfold C.Ty.min at h1
    rw [hb] at h1
    split_ifs at h1 <;> omega
  have e : (o.arg q).setWidth 64 = BitVec.ofInt 64 (q.v + 2 ^ 32) := by
    have e' : o.arg q = cast_int q := by cases o <;> first | exact absurd rfl ho | rfl
    rw [e']
    unfold cast_int C.bitsOf
    apply BitVec.eq_of_toNat_eq
    rw [BitVec.toNat_setWidth, BitVec.toNat_setWidth, BitVec.toNat_ofInt, BitVec.toNat_ofInt, hb]
    omega
  refine ⟨_, bitScalar_eq h hk hN s o left a q, fun i => ?_, fun e => ?_⟩
  · rw [e]
  · have := congrArg BitVec.toNat e
    rw [BitVec.toNat_ofInt, BitVec.toNat_ofInt] at this
    omega

/-- `v & -1` on 64-bit lanes clears the upper half of every lane, on every build. -/
theorem C58_and_minus_one (h : c.Ok) (hN : c.VLen 64 N) (s : Bool) (a : Vec 64 N) :
    ∃ res, bitScalar c .int s .and false a ⟨C.int32, -1⟩ = some res ∧ ∀ i, res i = a i &&& 0xffffffff#64 := by
  obtain ⟨res, e, hv, _⟩ := C58_negative_int (k := .int) h hN s .and (by decide) false a ⟨C.int32, -1⟩ rfl ⟨by decide, by decide⟩ (by decide) iw64
  exact ⟨res, e, fun i => (hv i).trans rfl⟩

/-- The absolute value idiom `v & 0x7fffffff` on `float32` vectors in 16-byte registers: the sign bits are cleared. -/
example (a : Vec 32 8) : ∃ res, bitScalar Cfg.sse2Only .flt false .and false a ⟨C.int32, 0x7fffffff⟩ = some res ∧
    ∀ i, res i = a i &&& 0x7fffffff#32 := by
  obtain ⟨res, e, hv⟩ := C58_scalar_bits (c := Cfg.sse2Only) (k := .flt) Cfg.sse2Only_ok (Or.inl rfl) (Or.inr ⟨2, by decide, by decide +kernel⟩) false .and
    false a ⟨C.int32, 0x7fffffff⟩ (Or.inl rfl) ⟨by decide, by decide⟩ (Or.inr (Or.inr (by decide)))
  exact ⟨res, e, fun i => (hv i).trans rfl⟩

/-- A signed byte mask: `v & -4` on 8-bit lanes. -/
example (a : Vec 8 32) : ∃ res, bitScalar Cfg.avx2Only .int true .and false a ⟨C.int32, -4⟩ = some res ∧ ∀ i, res i = a i &&& 0xfc#8 := by
  obtain ⟨res, e, hv⟩ := C58_scalar_bits (c := Cfg.avx2Only) (k := .int) Cfg.avx2Only_ok isW8 (Or.inl ⟨.r256, rfl, rfl⟩) true .and
    false a ⟨C.int32, -4⟩ (Or.inl rfl) ⟨by decide, by decide⟩ (Or.inr (Or.inl (by decide)))
  exact ⟨res, e, fun i => (hv i).trans rfl⟩

end Simdpp
