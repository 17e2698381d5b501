import Verif.Model.CInt
import Mathlib.Tactic.NormNum

/-! Evaluation lemmas for the C integer semantics. -/

namespace Simdpp.C

theorem wrap_i32 {x : Int} (h1 : -2147483648 ≤ x) (h2 : x ≤ 2147483647) : wrap int32 x = x := by
  show Int.bmod x (2 ^ 32) = x
  rw [Int.bmod_eq_of_le] <;> omega

theorem wrap_i64 {x : Int} (h1 : -9223372036854775808 ≤ x) (h2 : x ≤ 9223372036854775807) :
    wrap int64 x = x := by
  show Int.bmod x (2 ^ 64) = x
  rw [Int.bmod_eq_of_le] <;> omega

theorem wrap_u32 {x : Int} (h1 : 0 ≤ x) (h2 : x < 4294967296) : wrap uint32 x = x := by
  show x % (2 ^ 32 : Int) = x
  exact Int.emod_eq_of_lt h1 (by omega)

theorem wrap_u64 {x : Int} (h1 : 0 ≤ x) (h2 : x < 18446744073709551616) : wrap uint64 x = x := by
  show x % (2 ^ 64 : Int) = x
  exact Int.emod_eq_of_lt h1 (by omega)

theorem wrap_u8 {x : Int} (h1 : 0 ≤ x) (h2 : x < 256) : wrap ⟨false, 8⟩ x = x := by
  show x % (2 ^ 8 : Int) = x
  exact Int.emod_eq_of_lt h1 (by omega)

theorem wrap_u16 {x : Int} (h1 : 0 ≤ x) (h2 : x < 65536) : wrap ⟨false, 16⟩ x = x := by
  show x % (2 ^ 16 : Int) = x
  exact Int.emod_eq_of_lt h1 (by omega)

theorem wrap_i8 {x : Int} (h1 : -128 ≤ x) (h2 : x ≤ 127) : wrap ⟨true, 8⟩ x = x := by
  show Int.bmod x (2 ^ 8) = x
  rw [Int.bmod_eq_of_le] <;> omega

theorem wrap_i16 {x : Int} (h1 : -32768 ≤ x) (h2 : x ≤ 32767) : wrap ⟨true, 16⟩ x = x := by
  show Int.bmod x (2 ^ 16) = x
  rw [Int.bmod_eq_of_le] <;> omega

theorem arith_i32 {x : Int} (h1 : -2147483648 ≤ x) (h2 : x ≤ 2147483647) :
    arith int32 x = some ⟨int32, x⟩ := by
  exact if_pos (And.intro h1 h2)

theorem arith_i32_ub {x : Int} (h : x < -2147483648 ∨ 2147483647 < x) :
    arith int32 x = none := by
  show (if int32.min ≤ x ∧ x ≤ int32.max then _ else _) = _
  exact if_neg (by rintro ⟨h1, h2⟩; change (-2147483648 : Int) ≤ x at h1; change x ≤ 2147483647 at h2; omega)

theorem arith_i64 {x : Int} (h1 : -9223372036854775808 ≤ x) (h2 : x ≤ 9223372036854775807) :
    arith int64 x = some ⟨int64, x⟩ := by
  exact if_pos (And.intro h1 h2)

theorem arith_i64_ub {x : Int} (h : x < -9223372036854775808 ∨ 9223372036854775807 < x) :
    arith int64 x = none := by
  show (if int64.min ≤ x ∧ x ≤ int64.max then _ else _) = _
  exact if_neg (by
    rintro ⟨h1, h2⟩; change (-9223372036854775808 : Int) ≤ x at h1
    change x ≤ 9223372036854775807 at h2; omega)

theorem arith_u32 (x : Int) : arith uint32 x = some ⟨uint32, x % 4294967296⟩ := rfl
theorem arith_u64 (x : Int) : arith uint64 x = some ⟨uint64, x % 18446744073709551616⟩ := rfl

theorem ofInt_emod_32 (x : Int) : BitVec.ofInt 32 (x % 4294967296) = BitVec.ofInt 32 x := by
  apply BitVec.eq_of_toInt_eq
  simp only [BitVec.toInt_ofInt]
  exact Int.emod_bmod (x := x) (n := 2^32)

theorem ofInt_emod_64 (x : Int) : BitVec.ofInt 64 (x % 18446744073709551616) = BitVec.ofInt 64 x := by
  apply BitVec.eq_of_toInt_eq
  simp only [BitVec.toInt_ofInt]
  exact Int.emod_bmod (x := x) (n := 2^64)

/-- The integer denoted by lane bits. -/
theorem lane_v_unsigned (x : BitVec w) : (lane false x).v = x.toNat := rfl
theorem lane_v_signed (x : BitVec w) : (lane true x).v = x.toInt := rfl
theorem lane_ty (s : Bool) (x : BitVec w) : (lane s x).ty = ⟨s, w⟩ := rfl

theorem toInt_bounds8 (x : BitVec 8) : -128 ≤ x.toInt ∧ x.toInt ≤ 127 := by
  have := x.toInt_lt; have := x.le_toInt; omega
theorem toInt_bounds16 (x : BitVec 16) : -32768 ≤ x.toInt ∧ x.toInt ≤ 32767 := by
  have := x.toInt_lt; have := x.le_toInt; omega
theorem toInt_bounds32 (x : BitVec 32) : -2147483648 ≤ x.toInt ∧ x.toInt ≤ 2147483647 := by
  have := x.toInt_lt; have := x.le_toInt; omega
theorem toInt_bounds64 (x : BitVec 64) :
    -9223372036854775808 ≤ x.toInt ∧ x.toInt ≤ 9223372036854775807 := by
  have := x.toInt_lt; have := x.le_toInt; omega

theorem toLane_mk (w : Nat) (t : Ty) (x : Int) : toLane w ⟨t, x⟩ = BitVec.ofInt w x := rfl

/-- Reading back the lane that was just written. -/
theorem ofInt_toNat (x : BitVec w) : BitVec.ofInt w (x.toNat : Int) = x := by
  simp
theorem ofInt_toInt' (x : BitVec w) : BitVec.ofInt w x.toInt = x := BitVec.ofInt_toInt

/-! ### Evaluation when every intermediate value fits its type -/

/-- `x` is a value of type `t`. -/
def InR (t : Ty) (x : Int) : Prop := t.min ≤ x ∧ x ≤ t.max

theorem wrap_inR {t : Ty} (hb : 0 < t.bits) {x : Int} (h : InR t x) : wrap t x = x := by
  obtain ⟨s, b⟩ := t
  obtain ⟨h1, h2⟩ := h
  have hp : (2:Int) ^ b = 2 * 2 ^ (b - 1) := by
    rw [← Int.pow_succ', Nat.sub_add_cancel hb]
  unfold Ty.min at h1; unfold Ty.max at h2; unfold wrap
  cases s
  · simp only [Bool.false_eq_true, if_false] at *
    exact Int.emod_eq_of_lt h1 (by omega)
  · simp only [if_true] at *
    rw [Int.bmod_eq_of_le] <;> push_cast <;> rw [hp] <;> omega

theorem arith_inR {t : Ty} (hb : 0 < t.bits) {x : Int} (h : InR t x) : arith t x = some ⟨t, x⟩ := by
  unfold arith
  split
  · exact if_pos h
  · rw [wrap_inR hb h]

theorem add_inR {s t u : Ty} {x y : Int} (hu : usual s t = u) (hb : 0 < u.bits) (hx : InR u x) (hy : InR u y)
    (hr : InR u (x + y)) : add ⟨s, x⟩ ⟨t, y⟩ = some ⟨u, x + y⟩ := by
  unfold add; simp only [hu, wrap_inR hb hx, wrap_inR hb hy]; exact arith_inR hb hr
theorem sub_inR {s t u : Ty} {x y : Int} (hu : usual s t = u) (hb : 0 < u.bits) (hx : InR u x) (hy : InR u y)
    (hr : InR u (x - y)) : sub ⟨s, x⟩ ⟨t, y⟩ = some ⟨u, x - y⟩ := by
  unfold sub; simp only [hu, wrap_inR hb hx, wrap_inR hb hy]; exact arith_inR hb hr
theorem mul_inR {s t u : Ty} {x y : Int} (hu : usual s t = u) (hb : 0 < u.bits) (hx : InR u x) (hy : InR u y)
    (hr : InR u (x * y)) : mul ⟨s, x⟩ ⟨t, y⟩ = some ⟨u, x * y⟩ := by
  unfold mul; simp only [hu, wrap_inR hb hx, wrap_inR hb hy]; exact arith_inR hb hr

theorem shr_inR {s t u : Ty} {x : Int} {k : Nat} (hu : promTy s = u) (hb : 0 < u.bits) (hx : InR u x)
    (hk : k < u.bits) (hkt : InR (promTy t) k) (ht : 0 < (promTy t).bits) :
    shr ⟨s, x⟩ ⟨t, k⟩ = some ⟨u, x / 2 ^ k⟩ := by
  unfold shr
  simp only [hu, wrap_inR hb hx, wrap_inR ht hkt]
  rw [if_pos (by omega)]; rfl

theorem cast_inR {t s : Ty} {x : Int} (hb : 0 < t.bits) (hx : InR t x) : cast t ⟨s, x⟩ = ⟨t, x⟩ := by
  unfold cast; rw [wrap_inR hb hx]

/-- Discharge `InR` for a concrete type: reduce the bounds to numerals and use `omega`. -/
macro "inr" : tactic => `(tactic|
  (constructor <;> simp only [Ty.min, Ty.max, int32, uint32, int64, uint64, if_true, Bool.false_eq_true, if_false] <;>
    norm_num <;> omega))

end Simdpp.C
