import Verif.Model.Mask
import Verif.Model.Array

/-!
# bit_cast

`simdpp/core/cast.h`, `simdpp/detail/cast.inl`, `simdpp/detail/cast_bitwise.h`.
-/

namespace Simdpp.Cast

/-- `native_cast<Size, T, R>::cast`: every specialisation keeps the register's bits
(`_mm_cast*`, `vreinterpretq_*`, the union in `cast_bitwise`).
Models /repo/simdpp/detail/cast_bitwise.h:30-40, 63-219. -/
def native_cast {wT LT : Nat} (wR LR : Nat) (t : Vec wT LT) : Vec wR LR := t.recast wR LR

/-- `native_cast_split::cast`: `r0` is the low half (`_mm256_castps256_ps128`), `r1` the high half
(`_mm256_extractf128_ps(t, 1)`). Models /repo/simdpp/detail/cast_bitwise.h:221-283. -/
def native_cast_split {wT LT : Nat} (wR LR : Nat) (t : Vec wT LT) : Vec wR LR × Vec wR LR :=
  (t.recast wR LR, fun i => (t.recast wR (2 * LR)) ⟨LR + i.val, by have := i.isLt; omega⟩)

/-- `native_cast_combine::cast`: `t0` becomes the low half, `t1` the high half
(`insertf128(r, t1, 1)`). Models /repo/simdpp/detail/cast_bitwise.h:241-309. -/
def native_cast_combine {wT LT : Nat} (wR LR : Nat) (t0 t1 : Vec wT LT) : Vec wR LR :=
  Vec.recast wR LR (w := wT) (n := 2 * LT)
    fun i => if h : i.val < LT then t0 ⟨i.val, h⟩ else t1 ⟨i.val - LT, by have := i.isLt; omega⟩

variable {wT LT wR LR kT kR : Nat}

/-- `cast_bitwise_vector_impl<I, MaxI>::cast(..., 1_TO_1)`.
Models /repo/simdpp/detail/cast_bitwise.h:321-333, 363-367. -/
def cast11 (t : Fin kT → Vec wT LT) (hk : kT = kR) (I : Nat) (r : Fin kR → Vec wR LR) :
    Fin kR → Vec wR LR :=
  if h : I < kT then
    cast11 t hk (I + 1) (Arr.set r ⟨I, hk ▸ h⟩ (native_cast wR LR (t ⟨I, h⟩)))
  else r
termination_by kT - I

/-- `cast_bitwise_vector_impl<I, MaxI>::cast(..., SPLIT2)`.
Models /repo/simdpp/detail/cast_bitwise.h:335-348. -/
def castSplit (t : Fin kT → Vec wT LT) (hk : kT * 2 = kR) (I : Nat) (r : Fin kR → Vec wR LR) :
    Fin kR → Vec wR LR :=
  if h : I < kT then
    let p := native_cast_split wR LR (t ⟨I, h⟩)
    let r := Arr.set r ⟨I * 2, by omega⟩ p.1
    let r := Arr.set r ⟨I * 2 + 1, by omega⟩ p.2
    castSplit t hk (I + 1) r
  else r
termination_by kT - I

/-- `cast_bitwise_vector_impl<I, MaxI>::cast(..., COMBINE2)`.
Models /repo/simdpp/detail/cast_bitwise.h:350-360. -/
def castCombine (t : Fin kT → Vec wT LT) (hk : kT = kR * 2) (I : Nat) (r : Fin kR → Vec wR LR) :
    Fin kR → Vec wR LR :=
  if h : I < kR then
    castCombine t hk (I + 1)
      (Arr.set r ⟨I, h⟩ (native_cast_combine wR LR (t ⟨I * 2, by omega⟩) (t ⟨I * 2 + 1, by omega⟩)))
  else r
termination_by kR - I

/-- `cast_bitwise_vector`: chooses by the number of base vectors; any other ratio is
`VECTOR_CAST_TYPE_INVALID` (no overload).
Models /repo/simdpp/detail/cast_bitwise.h:374-390. -/
def cast_bitwise_vector (t : Fin kT → Vec wT LT) (r : Fin kR → Vec wR LR) :
    Option (Fin kR → Vec wR LR) :=
  if h : kT = kR then some (cast11 t h 0 r)
  else if h : kT = kR * 2 then some (castCombine t h 0 r)
  else if h : kT * 2 = kR then some (castSplit t h 0 r)
  else none

/-- `CAST_MASK_*`. /repo/simdpp/detail/cast.h:24-28. -/
inductive MaskCast | memcpy | unmask | remask
deriving DecidableEq

/-- `cast_mask_override<R, T>` with `R = mask_<dst>`, `T = mask_<src>`.
Models /repo/simdpp/core/cast.h:25-43. -/
def cast_mask_override (c : Cfg) (w : Nat) (src dst : Kind) : MaskCast :=
  if c.neonNoFltSp ∧ w = 32 ∧ dst = .flt ∧ src = .int then .unmask
  else if c.neonNoFltSp ∧ w = 32 ∧ dst = .int ∧ src = .flt then .remask
  else if c.neon32 ∧ w = 64 ∧ dst = .int ∧ src = .flt then .unmask
  else if c.neon32 ∧ w = 64 ∧ dst = .flt ∧ src = .int then .remask
  else if c.vsx206 ∧ ¬ c.vsx207 ∧ w = 64 ∧ dst = .int ∧ src = .flt then .remask
  else if c.vsx206 ∧ ¬ c.vsx207 ∧ w = 64 ∧ dst = .flt ∧ src = .int then .unmask
  else .memcpy

/-- `bit_cast<mask_R>(mask_T)` for masks of equal element size and one base vector. Same type: copy.
`none` = rejected by `static_assert(sizeof(R) == sizeof(T))`.
Models /repo/simdpp/core/cast.h:45-75, /repo/simdpp/detail/cast.inl:35-84. -/
def bit_cast_mask {w n : Nat} (c : Cfg) (src dst : Kind) (r : Reg) (m : Mask w n) :
    Option (Mask w n) :=
  if src = dst then some m
  else match cast_mask_override c w src dst with
    | .memcpy => if c.maskBits src w r = c.maskBits dst w r then some m else none
    | .unmask => if c.maskBits dst w r then none else some (.vec m.unmask)
    | .remask => some (i_to_mask c dst r m.unmask)

end Simdpp.Cast
