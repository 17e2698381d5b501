import Verif.Model.CIntLemmas

/-!
# The portable backend (`simdpp/detail/null/math.h`, `bitwise.h`, `compare.h`)

Each function is a loop over lanes whose body is a C++ expression; the body is
evaluated with the C semantics of `CInt.lean`, where `none` is undefined
behaviour. `s` is the signedness of the vector's element type.
-/

namespace Simdpp.Null

variable {w n : Nat}

open C in
/-- `null::add`: `r.el(i) = a.el(i) + b.el(i)`.
Models /repo/simdpp/detail/null/math.h:89-97. -/
def add (s : Bool) (a b : Vec w n) : Option (Vec w n) :=
  lanesM fun i => (C.add (lane s (a i)) (lane s (b i))).map (toLane w)

open C in
/-- `null::sub`. Models /repo/simdpp/detail/null/math.h:109-117. -/
def sub (s : Bool) (a b : Vec w n) : Option (Vec w n) :=
  lanesM fun i => (C.sub (lane s (a i)) (lane s (b i))).map (toLane w)

open C in
/-- `saturate<T, U>(t)` with `U = int32_t`: `min`/`max` of `T` converted to `U`,
then two conditional assignments, then conversion to `T`.
Models /repo/simdpp/detail/null/math.h:79-87. -/
def saturate (T : Ty) (t : Val) : Val :=
  let mn := cast int32 ⟨T, T.min⟩
  let mx := cast int32 ⟨T, T.max⟩
  let t := if lt t mn then mn else t
  let t := if gt t mx then mx else t
  cast T t

open C in
/-- `null::add_sat`: `saturate<T>(int32_t(a.el(i)) + b.el(i))`.
Models /repo/simdpp/detail/null/math.h:99-107. -/
def add_sat (s : Bool) (a b : Vec w n) : Option (Vec w n) :=
  lanesM fun i => (C.add (cast int32 (lane s (a i))) (lane s (b i))).map
    fun t => toLane w (saturate ⟨s, w⟩ t)

open C in
/-- `null::sub_sat`. Models /repo/simdpp/detail/null/math.h:119-127. -/
def sub_sat (s : Bool) (a b : Vec w n) : Option (Vec w n) :=
  lanesM fun i => (C.sub (cast int32 (lane s (a i))) (lane s (b i))).map
    fun t => toLane w (saturate ⟨s, w⟩ t)

open C in
/-- `null::neg`: `r.el(i) = -a.el(i)`. Models /repo/simdpp/detail/null/math.h:129-137. -/
def neg (s : Bool) (a : Vec w n) : Option (Vec w n) :=
  lanesM fun i => (C.neg (lane s (a i))).map (toLane w)

open C in
/-- `null::abs`: `r.el(i) = std::abs(a.el(i))`.
Models /repo/simdpp/detail/null/math.h:69-77. -/
def abs (s : Bool) (a : Vec w n) : Option (Vec w n) :=
  lanesM fun i => (C.abs (lane s (a i))).map (toLane w)

open C in
/-- `null::mul`: `r.el(i) = a.el(i) * b.el(i)`.
Models /repo/simdpp/detail/null/math.h:139-147. -/
def mul (s : Bool) (a b : Vec w n) : Option (Vec w n) :=
  lanesM fun i => (C.mul (lane s (a i)) (lane s (b i))).map (toLane w)

open C in
/-- `null::div_p<P>`: `mask = ~(~0ull << P)`;
`r.el(i) = (a.el(i) & mask) / (b.el(i) & mask); r.el(i) &= mask`.
Models /repo/simdpp/detail/null/math.h:169-184. -/
def div_p (P : Nat) (s : Bool) (a b : Vec w n) : Option (Vec w n) := do
  let m ← shl (bnot ⟨uint64, 0⟩) ⟨uint32, P⟩
  let mask := cast uint64 (bnot m)
  lanesM fun i =>
    (C.div (band (lane s (a i)) mask) (band (lane s (b i)) mask)).map fun q =>
      toLane w (band (lane s (toLane w q)) mask)

open C in
/-- `null::shift_r`: `a.el(i) >> shift`.
Models /repo/simdpp/detail/null/math.h:187-195. -/
def shift_r (s : Bool) (a : Vec w n) (k : Nat) : Option (Vec w n) :=
  lanesM fun i => (shr (lane s (a i)) ⟨uint32, k⟩).map (toLane w)

open C in
/-- `null::shift_r_v`: `a.el(i) >> shift.el(i)` (unsigned counts).
Models /repo/simdpp/detail/null/math.h:197-205. -/
def shift_r_v (s : Bool) (a k : Vec w n) : Option (Vec w n) :=
  lanesM fun i => (shr (lane s (a i)) (lane false (k i))).map (toLane w)

open C in
/-- `null::shift_l`: `a.el(i) << shift`.
Models /repo/simdpp/detail/null/math.h:207-215. -/
def shift_l (s : Bool) (a : Vec w n) (k : Nat) : Option (Vec w n) :=
  lanesM fun i => (shl (lane s (a i)) ⟨uint32, k⟩).map (toLane w)

open C in
/-- `null::shift_l_v`: `a.el(i) << shift.el(i)` (unsigned counts).
Models /repo/simdpp/detail/null/math.h:217-225. -/
def shift_l_v (s : Bool) (a k : Vec w n) : Option (Vec w n) :=
  lanesM fun i => (shl (lane s (a i)) (lane false (k i))).map (toLane w)

open C in
/-- `null::min`: `a.el(i) <= b.el(i) ? a.el(i) : b.el(i)`.
Models /repo/simdpp/detail/null/math.h:227-235. -/
def min (s : Bool) (a b : Vec w n) : Vec w n :=
  fun i => if le (lane s (a i)) (lane s (b i)) then a i else b i

open C in
/-- `null::max`: `a.el(i) >= b.el(i) ? a.el(i) : b.el(i)`.
Models /repo/simdpp/detail/null/math.h:237-245. -/
def max (s : Bool) (a b : Vec w n) : Vec w n :=
  fun i => if ge (lane s (a i)) (lane s (b i)) then a i else b i

/-! Bitwise operations: the operands are reinterpreted as the unsigned element
type `U`, combined with `&`, `|`, `^`, `~` and converted back. -/

open C in
/-- `null::bit_and`. Models /repo/simdpp/detail/null/bitwise.h:29-41. -/
def bit_and (a b : Vec w n) : Vec w n :=
  fun i => toLane w (cast ⟨false, w⟩ (band (lane false (a i)) (lane false (b i))))

open C in
/-- `null::bit_andnot`: `a1 & ~b1`. Models /repo/simdpp/detail/null/bitwise.h:64-76. -/
def bit_andnot (a b : Vec w n) : Vec w n :=
  fun i => toLane w (cast ⟨false, w⟩ (band (lane false (a i)) (bnot (lane false (b i)))))

open C in
/-- `null::bit_or`. Models /repo/simdpp/detail/null/bitwise.h:99-111. -/
def bit_or (a b : Vec w n) : Vec w n :=
  fun i => toLane w (cast ⟨false, w⟩ (bor (lane false (a i)) (lane false (b i))))

open C in
/-- `null::bit_xor`. Models /repo/simdpp/detail/null/bitwise.h:123-135. -/
def bit_xor (a b : Vec w n) : Vec w n :=
  fun i => toLane w (cast ⟨false, w⟩ (bxor (lane false (a i)) (lane false (b i))))

/-- `null::bit_and_vm`: `m.el(i) ? a.el(i) : 0`.
Models /repo/simdpp/detail/null/bitwise.h:43-51. -/
def bit_and_vm (a : Vec w n) (m : Fin n → Bool) : Vec w n := fun i => if m i then a i else 0

/-- `null::bit_andnot_vm`: `m.el(i) ? 0 : a.el(i)`.
Models /repo/simdpp/detail/null/bitwise.h:78-86. -/
def bit_andnot_vm (a : Vec w n) (m : Fin n → Bool) : Vec w n := fun i => if m i then 0 else a i

/-- `null::bit_and_mm`: mask elements are `uint8_t` holding 0 or 1; `a & b`.
Simplified: the 0/1 element is a `Bool`. Models /repo/simdpp/detail/null/bitwise.h:53-61. -/
def bit_and_mm (a b : Fin n → Bool) : Fin n → Bool := fun i => a i && b i

/-- `null::bit_andnot_mm`: `a & (b ^ 1)`. Models /repo/simdpp/detail/null/bitwise.h:88-96. -/
def bit_andnot_mm (a b : Fin n → Bool) : Fin n → Bool := fun i => a i && (b i ^^ true)

/-- `null::bit_or_mm`. Models /repo/simdpp/detail/null/bitwise.h:113-121. -/
def bit_or_mm (a b : Fin n → Bool) : Fin n → Bool := fun i => a i || b i

/-- `null::bit_xor_mm`. Models /repo/simdpp/detail/null/bitwise.h:137-145. -/
def bit_xor_mm (a b : Fin n → Bool) : Fin n → Bool := fun i => a i ^^ b i

/-- `null::bit_not_mm`: `a ^ 1`. Models /repo/simdpp/detail/null/bitwise.h:147-155. -/
def bit_not_mm (a : Fin n → Bool) : Fin n → Bool := fun i => a i ^^ true

open C in
/-- `null::test_bits_any`: `U r = 0; for … r |= a.el(i); return r != 0`.
Models /repo/simdpp/detail/null/bitwise.h:157-166. -/
def test_bits_any (a : Vec w n) : Bool :=
  let r := (List.finRange n).foldl
    (fun (r : Val) i => cast ⟨false, w⟩ (bor r (lane false (a i)))) ⟨⟨false, w⟩, 0⟩
  !(C.eq r ⟨int32, 0⟩)

open C in
/-- `null::cmp_eq`. Models /repo/simdpp/detail/null/compare.h:23-31. -/
def cmp_eq (s : Bool) (a b : Vec w n) : Fin n → Bool := fun i => C.eq (lane s (a i)) (lane s (b i))

open C in
/-- `null::cmp_neq`. Models /repo/simdpp/detail/null/compare.h:33-41. -/
def cmp_neq (s : Bool) (a b : Vec w n) : Fin n → Bool := fun i => !C.eq (lane s (a i)) (lane s (b i))

open C in
/-- `null::cmp_lt`. Models /repo/simdpp/detail/null/compare.h:43-51. -/
def cmp_lt (s : Bool) (a b : Vec w n) : Fin n → Bool := fun i => lt (lane s (a i)) (lane s (b i))

open C in
/-- `null::cmp_le`. Models /repo/simdpp/detail/null/compare.h:53-61. -/
def cmp_le (s : Bool) (a b : Vec w n) : Fin n → Bool := fun i => le (lane s (a i)) (lane s (b i))

open C in
/-- `null::cmp_gt`. Models /repo/simdpp/detail/null/compare.h:63-71. -/
def cmp_gt (s : Bool) (a b : Vec w n) : Fin n → Bool := fun i => gt (lane s (a i)) (lane s (b i))

open C in
/-- `null::cmp_ge`. Models /repo/simdpp/detail/null/compare.h:73-81. -/
def cmp_ge (s : Bool) (a b : Vec w n) : Fin n → Bool := fun i => ge (lane s (a i)) (lane s (b i))

end Simdpp.Null
