import Verif.Model.Vec

/-!
# C++ integer expressions

The portable ("NULL") backend is written as ordinary C++ integer expressions.
This file gives those expressions a semantics in which undefined behaviour is a
distinct outcome, `none`. `int` is 32 bits, `long long` 64 bits, two's
complement (as on every target of the library). The rules are those of C++14
[conv.prom], [expr]p11 (usual arithmetic conversions), [expr.shift],
[expr.mul]; conversion of an out-of-range value to a signed type is reduction
modulo 2^w (implementation-defined in C++14, this on all supported compilers).
-/

namespace Simdpp.C

/-- An integer type. -/
structure Ty where
  signed : Bool
  bits : Nat
deriving DecidableEq, Repr

/-- `int32_t` / `int`. -/
def int32 : Ty := ⟨true, 32⟩
/-- `uint32_t` / `unsigned`. -/
def uint32 : Ty := ⟨false, 32⟩
/-- `int64_t`. -/
def int64 : Ty := ⟨true, 64⟩
/-- `uint64_t`. -/
def uint64 : Ty := ⟨false, 64⟩

/-- least value -/
def Ty.min (t : Ty) : Int := if t.signed then -(2 ^ (t.bits - 1) : Int) else 0
/-- greatest value -/
def Ty.max (t : Ty) : Int := if t.signed then (2 ^ (t.bits - 1) : Int) - 1 else (2 ^ t.bits : Int) - 1

/-- A typed value. -/
structure Val where
  ty : Ty
  v : Int
deriving DecidableEq, Repr

/-- Value conversion to type `t` (modulo 2^bits). -/
def wrap (t : Ty) (x : Int) : Int :=
  if t.signed then Int.bmod x (2 ^ t.bits) else x % (2 ^ t.bits : Int)

/-- `(T)x`, `static_cast<T>(x)`, assignment to a `T`. -/
def cast (t : Ty) (x : Val) : Val := ⟨t, wrap t x.v⟩

/-- Integral promotion: types narrower than `int` become `int`. -/
def promTy (t : Ty) : Ty := if t.bits < 32 then int32 else t

/-- Usual arithmetic conversions of two (integer) types. -/
def usual (s t : Ty) : Ty :=
  let s := promTy s
  let t := promTy t
  if s.signed = t.signed then (if s.bits < t.bits then t else s)
  else
    let u := if s.signed then t else s   -- the unsigned one
    let g := if s.signed then s else t   -- the signed one
    if g.bits ≤ u.bits then u else g

/-- Result of an arithmetic operation computed in type `t`:
signed overflow is undefined, unsigned arithmetic wraps. -/
def arith (t : Ty) (x : Int) : Option Val :=
  if t.signed then (if t.min ≤ x ∧ x ≤ t.max then some ⟨t, x⟩ else none)
  else some ⟨t, wrap t x⟩

/-- `a + b` -/
def add (a b : Val) : Option Val :=
  let t := usual a.ty b.ty; arith t (wrap t a.v + wrap t b.v)
/-- `a - b` -/
def sub (a b : Val) : Option Val :=
  let t := usual a.ty b.ty; arith t (wrap t a.v - wrap t b.v)
/-- `a * b` -/
def mul (a b : Val) : Option Val :=
  let t := usual a.ty b.ty; arith t (wrap t a.v * wrap t b.v)
/-- `a / b` (division by zero undefined; the minimum divided by minus one overflows). -/
def div (a b : Val) : Option Val :=
  let t := usual a.ty b.ty
  if wrap t b.v = 0 then none else arith t (Int.tdiv (wrap t a.v) (wrap t b.v))
/-- unary `-a` -/
def neg (a : Val) : Option Val :=
  let t := promTy a.ty; arith t (- wrap t a.v)
/-- `std::abs(a)` / `a < 0 ? -a : a` at a signed type at least `int`. -/
def abs (a : Val) : Option Val :=
  let t := promTy a.ty; if wrap t a.v < 0 then arith t (- wrap t a.v) else some ⟨t, wrap t a.v⟩

/-- `a < b` -/
def lt (a b : Val) : Bool := let t := usual a.ty b.ty; decide (wrap t a.v < wrap t b.v)
/-- `a <= b` -/
def le (a b : Val) : Bool := let t := usual a.ty b.ty; decide (wrap t a.v ≤ wrap t b.v)
/-- `a > b` -/
def gt (a b : Val) : Bool := lt b a
/-- `a >= b` -/
def ge (a b : Val) : Bool := le b a
/-- `a == b` -/
def eq (a b : Val) : Bool := let t := usual a.ty b.ty; decide (wrap t a.v = wrap t b.v)

/-- The bits of `x` in a `t`-typed object. -/
def bitsOf (t : Ty) (x : Int) : BitVec t.bits := BitVec.ofInt t.bits x
/-- The value of the bit pattern `b` read as type `t`. -/
def valOf (t : Ty) (b : BitVec t.bits) : Val := ⟨t, if t.signed then b.toInt else b.toNat⟩

/-- `a & b` -/
def band (a b : Val) : Val :=
  let t := usual a.ty b.ty; valOf t (bitsOf t a.v &&& bitsOf t b.v)
/-- `a | b` -/
def bor (a b : Val) : Val :=
  let t := usual a.ty b.ty; valOf t (bitsOf t a.v ||| bitsOf t b.v)
/-- `a ^ b` -/
def bxor (a b : Val) : Val :=
  let t := usual a.ty b.ty; valOf t (bitsOf t a.v ^^^ bitsOf t b.v)
/-- `~a` -/
def bnot (a : Val) : Val :=
  let t := promTy a.ty; valOf t (~~~ (bitsOf t a.v))

/-- `a << b`: undefined unless `0 ≤ b < bits`; for a signed left operand also
undefined if it is negative or the result is not representable in the
corresponding unsigned type (C++14 [expr.shift]p2 with DR1457). -/
def shl (a b : Val) : Option Val :=
  let t := promTy a.ty
  let x := wrap t a.v
  let k := wrap (promTy b.ty) b.v
  if 0 ≤ k ∧ k < t.bits then
    if t.signed then
      if 0 ≤ x ∧ x * 2 ^ k.toNat < 2 ^ t.bits then some ⟨t, wrap t (x * 2 ^ k.toNat)⟩ else none
    else some ⟨t, wrap t (x * 2 ^ k.toNat)⟩
  else none

/-- `a >> b`: undefined unless `0 ≤ b < bits`; arithmetic for negative values. -/
def shr (a b : Val) : Option Val :=
  let t := promTy a.ty
  let x := wrap t a.v
  let k := wrap (promTy b.ty) b.v
  if 0 ≤ k ∧ k < t.bits then some ⟨t, x / 2 ^ k.toNat⟩ else none

/-- Read lane bits as an object of the lane's element type
(`el(i)`: `intW_t` if `s`, else `uintW_t`). -/
def lane (s : Bool) (x : BitVec w) : Val := ⟨⟨s, w⟩, if s then x.toInt else x.toNat⟩

/-- Assign a value to a `w`-bit lane (`r.el(i) = x`). -/
def toLane (w : Nat) (x : Val) : BitVec w := BitVec.ofInt w x.v

end Simdpp.C
