import Verif.Model.Bytes16

/-!
# `make_shuffle_bytes16_mask`

`simdpp/core/make_shuffle_bytes_mask.h`. The ten overloads are indexed by the element size in bytes
`q` (type of the mask argument) and the number of selectors `u`.
-/

namespace Simdpp

/-- `get_shuffle_bytex{q}_16<s,u>::r{k}`.
Models /repo/simdpp/core/make_shuffle_bytes_mask.h:48-80. -/
def getShuffleByte (q u : Nat) (s : Int) (k : Nat) : Nat :=
  let r0 : Int := if s < u then s * q else (s - u) * q + 16
  if s = -1 then 0x80 else r0.toNat + k

/-- `make_shuffle_bytes16_mask<s0,...,s1>(uint8<N>&)`.
Models /repo/simdpp/core/make_shuffle_bytes_mask.h:117-128. -/
def mask8x2 (s : Nat → Int) : List Nat :=
  let b := fun p k => getShuffleByte 1 2 (s p) k
  [b 0 0, b 1 0, b 0 0 + 2, b 1 0 + 2, b 0 0 + 4, b 1 0 + 4, b 0 0 + 6, b 1 0 + 6,
   b 0 0 + 8, b 1 0 + 8, b 0 0 + 10, b 1 0 + 10, b 0 0 + 12, b 1 0 + 12, b 0 0 + 14, b 1 0 + 14]

/-- `make_shuffle_bytes16_mask<s0,...,s3>(uint8<N>&)`.
Models /repo/simdpp/core/make_shuffle_bytes_mask.h:165-178. -/
def mask8x4 (s : Nat → Int) : List Nat :=
  let b := fun p k => getShuffleByte 1 4 (s p) k
  [b 0 0, b 1 0, b 2 0, b 3 0, b 0 0 + 4, b 1 0 + 4, b 2 0 + 4, b 3 0 + 4,
   b 0 0 + 8, b 1 0 + 8, b 2 0 + 8, b 3 0 + 8, b 0 0 + 12, b 1 0 + 12, b 2 0 + 12, b 3 0 + 12]

/-- `make_shuffle_bytes16_mask<s0,...,s7>(uint8<N>&)`.
Models /repo/simdpp/core/make_shuffle_bytes_mask.h:212-230. -/
def mask8x8 (s : Nat → Int) : List Nat :=
  let b := fun p k => getShuffleByte 1 8 (s p) k
  [b 0 0, b 1 0, b 2 0, b 3 0, b 4 0, b 5 0, b 6 0, b 7 0,
   b 0 0 + 8, b 1 0 + 8, b 2 0 + 8, b 3 0 + 8, b 4 0 + 8, b 5 0 + 8, b 6 0 + 8, b 7 0 + 8]

/-- `make_shuffle_bytes16_mask<s0,...,s15>(uint8<N>&)`.
Models /repo/simdpp/core/make_shuffle_bytes_mask.h:258-287. -/
def mask8x16 (s : Nat → Int) : List Nat :=
  let b := fun p k => getShuffleByte 1 16 (s p) k
  [b 0 0, b 1 0, b 2 0, b 3 0, b 4 0, b 5 0, b 6 0, b 7 0,
   b 8 0, b 9 0, b 10 0, b 11 0, b 12 0, b 13 0, b 14 0, b 15 0]

/-- `make_shuffle_bytes16_mask<s0,...,s1>(uint16<N>&)`.
Models /repo/simdpp/core/make_shuffle_bytes_mask.h:322-333. -/
def mask16x2 (s : Nat → Int) : List Nat :=
  let b := fun p k => getShuffleByte 2 2 (s p) k
  [b 0 0, b 0 1, b 1 0, b 1 1, b 0 0 + 4, b 0 1 + 4, b 1 0 + 4, b 1 1 + 4,
   b 0 0 + 8, b 0 1 + 8, b 1 0 + 8, b 1 1 + 8, b 0 0 + 12, b 0 1 + 12, b 1 0 + 12, b 1 1 + 12]

/-- `make_shuffle_bytes16_mask<s0,...,s3>(uint16<N>&)`.
Models /repo/simdpp/core/make_shuffle_bytes_mask.h:370-383. -/
def mask16x4 (s : Nat → Int) : List Nat :=
  let b := fun p k => getShuffleByte 2 4 (s p) k
  [b 0 0, b 0 1, b 1 0, b 1 1, b 2 0, b 2 1, b 3 0, b 3 1,
   b 0 0 + 8, b 0 1 + 8, b 1 0 + 8, b 1 1 + 8, b 2 0 + 8, b 2 1 + 8, b 3 0 + 8, b 3 1 + 8]

/-- `make_shuffle_bytes16_mask<s0,...,s7>(uint16<N>&)`.
Models /repo/simdpp/core/make_shuffle_bytes_mask.h:413-433. -/
def mask16x8 (s : Nat → Int) : List Nat :=
  let b := fun p k => getShuffleByte 2 8 (s p) k
  [b 0 0, b 0 1, b 1 0, b 1 1, b 2 0, b 2 1, b 3 0, b 3 1,
   b 4 0, b 4 1, b 5 0, b 5 1, b 6 0, b 6 1, b 7 0, b 7 1]

/-- `make_shuffle_bytes16_mask<s0,...,s1>(uint32<N>&)`.
Models /repo/simdpp/core/make_shuffle_bytes_mask.h:465-476. -/
def mask32x2 (s : Nat → Int) : List Nat :=
  let b := fun p k => getShuffleByte 4 2 (s p) k
  [b 0 0, b 0 1, b 0 2, b 0 3, b 1 0, b 1 1, b 1 2, b 1 3,
   b 0 0 + 8, b 0 1 + 8, b 0 2 + 8, b 0 3 + 8, b 1 0 + 8, b 1 1 + 8, b 1 2 + 8, b 1 3 + 8]

/-- `make_shuffle_bytes16_mask<s0,...,s3>(uint32<N>&)`.
Models /repo/simdpp/core/make_shuffle_bytes_mask.h:504-517. -/
def mask32x4 (s : Nat → Int) : List Nat :=
  let b := fun p k => getShuffleByte 4 4 (s p) k
  [b 0 0, b 0 1, b 0 2, b 0 3, b 1 0, b 1 1, b 1 2, b 1 3,
   b 2 0, b 2 1, b 2 2, b 2 3, b 3 0, b 3 1, b 3 2, b 3 3]

/-- `make_shuffle_bytes16_mask<s0,...,s1>(uint64<N>&)`.
Models /repo/simdpp/core/make_shuffle_bytes_mask.h:543-554. -/
def mask64x2 (s : Nat → Int) : List Nat :=
  let b := fun p k => getShuffleByte 8 2 (s p) k
  [b 0 0, b 0 1, b 0 2, b 0 3, b 0 4, b 0 5, b 0 6, b 0 7,
   b 1 0, b 1 1, b 1 2, b 1 3, b 1 4, b 1 5, b 1 6, b 1 7]

/-- Overload selection by element size and number of selectors, with the `static_assert` of
`assert_selector_range`. Models /repo/simdpp/core/make_shuffle_bytes_mask.h:25-45 and the ten overloads. -/
def makeShuffleMask (q u : Nat) (s : Nat → Int) : Option (List Nat) :=
  if ∀ p, p < u → -1 ≤ s p ∧ s p < u * 2 then
    match q, u with
    | 1, 2 => some (mask8x2 s)
    | 1, 4 => some (mask8x4 s)
    | 1, 8 => some (mask8x8 s)
    | 1, 16 => some (mask8x16 s)
    | 2, 2 => some (mask16x2 s)
    | 2, 4 => some (mask16x4 s)
    | 2, 8 => some (mask16x8 s)
    | 4, 2 => some (mask32x2 s)
    | 4, 4 => some (mask32x4 s)
    | 8, 2 => some (mask64x2 s)
    | _, _ => none
  else none

/-- `(uint8<N>) make_uint(m0, ..., m15)`: the sixteen values, converted to bytes, repeated over the
vector (see property C43). Models /repo/simdpp/core/make_uint.h, /repo/simdpp/detail/insn/make_const.h
for sixteen arguments. -/
def maskVec16 (n : Nat) (m : List Nat) : Vec 8 n := fun i => BitVec.ofNat 8 (m.getD (i.val % 16) 0)

end Simdpp
