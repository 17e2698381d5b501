import Verif.Model.Lanes
import Verif.Model.Shuffle32
import Verif.Model.Zip

/-!
# Conversions between integer lane widths

`simdpp/detail/insn/conv_extend_to_int{16,32,64}.h`, `conv_shrink_to_int{8,16,32}.h` and the wrappers
`simdpp/core/to_int{8,16,32,64}.h`. A vector of `N` lanes is modelled flat, as its registers laid one after
another (`Hw.part m p a` is register `p` of `m` lanes); `combine(r0, r1)` and `r.vec<p>() = ...` lay
registers one after another (`catM`). `sg` is the signedness of the source (`i_to_int*` / `i_to_uint*`).
Simplified: the branches for big-endian AltiVec are not modelled. The flag of `i_permute4_32` that
selects a compiler-specific NEON sequence is irrelevant on the x86 branches that use it here.
-/

namespace Simdpp
open Sh

variable {w v n N : Nat}

/-- Widest register available for `w`-bit integer lanes (`SIMDPP_FAST_INT*_SIZE`).
Models /repo/simdpp/types/fwd.h:98-141 and the `intXv` types of /repo/simdpp/types/int8.h. -/
def Cfg.fast (c : Cfg) (w : Nat) : Reg :=
  if c.hasInt w .r512 then .r512 else if c.hasInt w .r256 then .r256 else .r128

/-- Register type of a vector of `N` `w`-bit integer lanes: the type that is exactly one register
(specialisations of `/repo/simdpp/types/int8x16.h`, `int8x32.h`, `int8x64.h`, ...) or else an array of the
widest registers (`/repo/simdpp/types/int8.h`, ...). -/
def Cfg.regOf (c : Cfg) (w N : Nat) : Reg :=
  if N = Reg.r128.lanes w then .r128
  else if c.hasInt w .r256 ∧ N = Reg.r256.lanes w then .r256
  else if c.hasInt w .r512 ∧ N = Reg.r512.lanes w then .r512
  else c.fast w

namespace Hw

/-- One lane extended (`sg`: sign-extended). -/
def extLane (sg : Bool) (v : Nat) (x : BitVec w) : BitVec v := if sg then x.signExtend v else x.setWidth v

/-- Extend the lowest lanes (`_mm_cvtepu8_epi16`, `_mm256_cvtepi16_epi32`, `_mm512_cvtepu32_epi64`, ...,
`vmovl_u8(...)`, `vec_unpackh`, ...): as many as fit in the result. -/
def cvt {m : Nat} (sg : Bool) (v : Nat) (a : Vec w n) : Vec v m := fun i => extLane sg v (a.at_ i.val)

/-- Truncate the lanes (`_mm256_cvtepi16_epi8`, `_mm512_cvtepi64_epi8`, `vmovn_u16`, ...); lanes of the
result with no source are zero. -/
def trunc {m : Nat} (v : Nat) (a : Vec w n) : Vec v m := fun i => (a.at_ i.val).setWidth v

end Hw

/-- Registers of `m` lanes laid one after another. -/
def catM (m : Nat) (f : Nat → Option (Vec v m)) : Option (Vec v N) :=
  lanesM fun i => (f (i.val / m)).map (·.at_ (i.val % m))

/-- The portable loop `r.vec(i/k).el(i%k) = T(a.vec(i/l).el(i%l))`, `T` the element type of `r`; also the element
loops through `mem_block` on AltiVec.
Models /repo/simdpp/detail/insn/conv_extend_to_int16.h:30-35, 122-127,
/repo/simdpp/detail/insn/conv_extend_to_int32.h:34-39, 133-138, 243-248, 342-347,
/repo/simdpp/detail/insn/conv_extend_to_int64.h:32-38, 54-61, 126-131, 148-154, 243-248, 274-280, 382-388, 407-414,
478-483, 500-506, 594-599, 625-631, /repo/simdpp/detail/insn/conv_shrink_to_int8.h:33-38, 132-137, 252-257,
/repo/simdpp/detail/insn/conv_shrink_to_int16.h:30-35, 141-146, /repo/simdpp/detail/insn/conv_shrink_to_int32.h:28-33. -/
def Null.conv (sg : Bool) (v : Nat) (a : Vec w n) : Vec v n := fun i =>
  C.toLane v (C.cast ⟨sg, v⟩ (C.lane sg (a i)))

/-- `r.vec<p>() = cvt(a)` / `cvt(move_l<s>(a))` for the listed shifts `s` (0: no move), each filling a register of
`m` lanes. -/
def cvtMoves (c : Cfg) (sg : Bool) (v m : Nat) (ss : List Nat) (a : Vec w n) (p : Nat) : Option (Vec v m) :=
  let s := ss.getD p 0
  if s = 0 then some (Hw.cvt sg v a) else (moveL1 c .int s a).map (Hw.cvt sg v)

/-- Interleave with a register of high parts: `zip_lo(a, z)`, `zip_hi(a, z)` seen as lanes of twice the width. -/
def zipPair (c : Cfg) (m : Nat) (a z : Vec w n) (p : Nat) : Option (Vec (2 * w) m) :=
  (if p = 0 then i_zip_lo c .int .r128 a z else i_zip_hi c .int .r128 a z).map (·.recast (2 * w) m)

/-! ## Register indices of vector arrays -/

/-- Element that `vec<I>()` refers to in a vector of `K` registers: the small arrays are `switch`es whose last
case is the default, the others are plain C arrays (undefined past the end); a single register ignores `I`.
Models /repo/simdpp/detail/array.h:28-300, /repo/simdpp/types/int8x16.h:86-87. -/
def vecIx (K I : Nat) : Option Nat :=
  if I < K then some I else if K = 1 ∨ K = 2 ∨ K = 4 ∨ K = 8 then some (K - 1) else none

/-- A vector being filled register by register. -/
abbrev Regs (v m : Nat) := Nat → Option (Vec v m)

/-- `dst.vec<I>() = x` -/
def regWr {m : Nat} (K : Nat) (d : Regs v m) (I : Nat) (x : Vec v m) : Option (Regs v m) :=
  (vecIx K I).map fun j i => if i = j then some x else d i

/-- The converters that extend: for each source register `I < cnt` (of `m` lanes),
`sr = f(src.vec<I>())`, then `dst.vec<I*q+p>() = sr.vec<p>()` for `p < q`; registers of the result have `md` lanes.
Models /repo/simdpp/detail/insn/conv_extend_to_int16.h:89-116, 190-217,
/repo/simdpp/detail/insn/conv_extend_to_int32.h:95-126, 200-236, 304-335, 410-446,
/repo/simdpp/detail/insn/conv_extend_to_int64.h:92-119, 207-236, 342-375, 443-470, 558-587, 693-726. -/
def convUp {m : Nat} (q md cnt : Nat) (f : Vec w m → Option (Vec v m)) (a : Vec w N) : Option (Vec v N) := do
  let dst ← forS 1 0 cnt (fun I dst => do
    let sr ← f (Hw.part m I a)
    forS 1 0 q (fun p dst => do
      let j ← vecIx (m / md) p
      regWr (N / md) dst (I * q + p) (Hw.part md j sr)) dst) (fun _ => none)
  catM md dst

/-- The converters that shrink: for each destination register `I < cnt` (of `m` lanes),
`sr.vec<p>() = src.vec<I*q+p>()` for `p < q`, then `dst.vec<I>() = f(sr)`; registers of the source have `ms` lanes.
Models /repo/simdpp/detail/insn/conv_shrink_to_int8.h:99-126, 210-246, 354-387,
/repo/simdpp/detail/insn/conv_shrink_to_int16.h:103-135, 216-252,
/repo/simdpp/detail/insn/conv_shrink_to_int32.h:88-115. -/
def convDown {m : Nat} (q ms cnt : Nat) (f : Vec w m → Option (Vec v m)) (a : Vec w N) : Option (Vec v N) := do
  let dst ← forS 1 0 cnt (fun I dst => do
    let sr ← forS 1 0 q (fun p sr => do
      let j ← vecIx (N / ms) (I * q + p)
      regWr (m / ms) sr p (Hw.part ms j a)) (fun _ => none)
    let x ← catM ms sr
    regWr (N / m) dst I (← f x)) (fun _ => none)
  catM m dst

/-! ## Extension -/

/-- `i_to_uint16(uint8<N>)`, `i_to_int16(int8<N>)` on one register.
Models /repo/simdpp/detail/insn/conv_extend_to_int16.h:27-87, 119-187. -/
def ext8_16 (c : Cfg) (sg : Bool) (r : Reg) (a : Vec 8 n) : Option (Vec 16 n) :=
  match r with
  | .r128 =>
    if c.null then some (Null.conv sg 16 a)
    else if c.avx2 then some (Hw.cvt sg 16 a)
    else if c.sse41 then catM 8 (cvtMoves c sg 16 8 [0, 8] a)
    else if ¬ sg then
      if c.sse2 ∨ c.altivec ∨ c.msa then catM 8 (zipPair c 8 a (Vec.splat 0))
      else if c.neon then catM 8 (fun p => some (Hw.cvt sg 16 (Hw.half (p = 1) a)))
      else none
    else if c.sse2 then catM 8 (fun p => (zipPair c 8 (Vec.splat 0) a p).bind (shift_r_imm c true .r128 8))
    else if c.neon then catM 8 (fun p => some (Hw.cvt sg 16 (Hw.half (p = 1) a)))
    else if c.msa then do
      let sign ← shift_r_imm c true .r128 7 a
      catM 8 (zipPair c 8 a sign)
    else if c.altivec then catM 8 (fun p => some (Hw.cvt sg 16 (Hw.half (p = 1) a)))
    else none
  | .r256 =>
    if c.avx2 then
      if c.avx512bw then some (Hw.cvt sg 16 a)
      else catM 16 (fun p => some (Hw.cvt sg 16 (Hw.part 16 p a)))
    else none
  | .r512 => if c.avx512bw then catM 32 (fun p => some (Hw.cvt sg 16 (Hw.part 32 p a))) else none

/-- `i_to_uint32(uint16<N>)`, `i_to_int32(int16<N>)` on one register.
Models /repo/simdpp/detail/insn/conv_extend_to_int32.h:31-93, 240-302. -/
def ext16_32 (c : Cfg) (sg : Bool) (r : Reg) (a : Vec 16 n) : Option (Vec 32 n) :=
  match r with
  | .r128 =>
    if c.null then some (Null.conv sg 32 a)
    else if c.avx2 then some (Hw.cvt sg 32 a)
    else if c.sse41 then catM 4 (cvtMoves c sg 32 4 [0, 4] a)
    else if ¬ sg then
      if c.sse2 ∨ c.msa ∨ c.altivec then catM 4 (zipPair c 4 a (Vec.splat 0))
      else if c.neon then catM 4 (fun p => some (Hw.cvt sg 32 (Hw.half (p = 1) a)))
      else none
    else if c.sse2 ∨ c.msa then do
      let sign ← shift_r_imm c true .r128 15 a
      catM 4 (zipPair c 4 a sign)
    else if c.neon then catM 4 (fun p => some (Hw.cvt sg 32 (Hw.half (p = 1) a)))
    else if c.altivec then catM 4 (fun p => some (Hw.cvt sg 32 (Hw.half (p = 1) a)))
    else none
  | .r256 =>
    if c.avx2 then
      if c.avx512f then some (Hw.cvt sg 32 a)
      else catM 8 (fun p => some (Hw.cvt sg 32 (Hw.part 8 p a)))
    else none
  | .r512 => if c.avx512bw then catM 16 (fun p => some (Hw.cvt sg 32 (Hw.part 16 p a))) else none

/-- `i_to_uint64(uint32<N>)`, `i_to_int64(int32<N>)` on one register.
Models /repo/simdpp/detail/insn/conv_extend_to_int64.h:29-89, 379-440. -/
def ext32_64 (c : Cfg) (sg : Bool) (r : Reg) (a : Vec 32 n) : Option (Vec 64 n) :=
  match r with
  | .r128 =>
    if c.null then some (Null.conv sg 64 a)
    else if c.avx2 then some (Hw.cvt sg 64 a)
    else if c.sse41 then catM 2 (cvtMoves c sg 64 2 [0, 2] a)
    else if c.sse2 ∨ c.msa ∨ c.vsx207 then
      if ¬ sg then catM 2 (zipPair c 2 a (Vec.splat 0))
      else do
        let sign ← shift_r_imm c true .r128 31 a
        catM 2 (zipPair c 2 a sign)
    else if c.neon then catM 2 (fun p => some (Hw.cvt sg 64 (Hw.half (p = 1) a)))
    else if c.altivec then some (Null.conv sg 64 a)
    else none
  | .r256 => if c.avx2 then catM 4 (fun p => some (Hw.cvt sg 64 (Hw.part 4 p a))) else none
  | .r512 => if c.avx512f then catM 8 (fun p => some (Hw.cvt sg 64 (Hw.part 8 p a))) else none

/-- An extending overload set on a whole vector: the single-register overload when the narrow vector is one
register, else the template with the converter. `q` is the number of destination registers that the converter
stores per source register. -/
def extAll (c : Cfg) (q : Nat) (f : Reg → Vec w ((c.regOf w N).lanes w) → Option (Vec v ((c.regOf w N).lanes w)))
    (a : Vec w N) : Option (Vec v N) :=
  let r := c.regOf w N
  if h : N = r.lanes w then (f r (h ▸ a)).map (h ▸ ·)
  else convUp q ((c.regOf v N).lanes v) (N / r.lanes w) (f r) a

/-- `i_to_uint16(uint8<N>)`, `i_to_int16(int8<N>)`.
Models /repo/simdpp/detail/insn/conv_extend_to_int16.h:110-116, 211-217. -/
def i_ext8_16 (c : Cfg) (sg : Bool) (a : Vec 8 N) : Option (Vec 16 N) := extAll c 2 (ext8_16 c sg) a

/-- `i_to_uint32(uint16<N>)`, `i_to_int32(int16<N>)`.
Models /repo/simdpp/detail/insn/conv_extend_to_int32.h:95-126, 304-335. -/
def i_ext16_32 (c : Cfg) (sg : Bool) (a : Vec 16 N) : Option (Vec 32 N) :=
  extAll c (if c.avx512f ∧ ¬ c.avx512bw then 1 else 2) (ext16_32 c sg) a

/-- `i_to_uint64(uint32<N>)`, `i_to_int64(int32<N>)`.
Models /repo/simdpp/detail/insn/conv_extend_to_int64.h:113-119, 464-470. -/
def i_ext32_64 (c : Cfg) (sg : Bool) (a : Vec 32 N) : Option (Vec 64 N) := extAll c 2 (ext32_64 c sg) a

/-- `i_to_uint32(uint8<N>)`, `i_to_int32(int8<N>)` on one register.
Models /repo/simdpp/detail/insn/conv_extend_to_int32.h:130-197, 339-407. -/
def ext8_32 (c : Cfg) (sg : Bool) (r : Reg) (a : Vec 8 n) : Option (Vec 32 n) :=
  match r with
  | .r128 =>
    if c.null then some (Null.conv sg 32 a)
    else if c.avx512f then some (Hw.cvt sg 32 a)
    else if c.avx2 then catM 8 (cvtMoves c sg 32 8 [0, 8] a)
    else if c.sse41 then catM 4 (cvtMoves c sg 32 4 [0, 4, 8, 12] a)
    else if c.sse2 ∨ c.neon ∨ c.altivec ∨ c.msa then do
      let t ← i_ext8_16 c sg a
      i_ext16_32 c sg t
    else none
  | .r256 =>
    if c.avx2 then
      if c.avx512f then catM 16 (fun p => some (Hw.cvt sg 32 (Hw.part 16 p a)))
      else catM 8 (fun p => cvtMoves c sg 32 8 [0, 8] (Hw.part 16 (p / 2) a) (p % 2))
    else none
  | .r512 => if c.avx512bw then catM 16 (fun p => some (Hw.cvt sg 32 (Hw.part 16 p a))) else none

/-- `i_to_uint64(uint16<N>)`, `i_to_int64(int16<N>)` on one register.
Models /repo/simdpp/detail/insn/conv_extend_to_int64.h:123-204, 475-556. -/
def ext16_64 (c : Cfg) (sg : Bool) (r : Reg) (a : Vec 16 n) : Option (Vec 64 n) :=
  match r with
  | .r128 =>
    if c.null then some (Null.conv sg 64 a)
    else if c.avx512f then some (Hw.cvt sg 64 a)
    else if c.avx2 then catM 4 (cvtMoves c sg 64 4 [0, 4] a)
    else if c.sse41 then catM 2 (cvtMoves c sg 64 2 [0, 2, 4, 6] a)
    else if c.sse2 ∨ c.neon ∨ c.msa ∨ c.vsx207 then do
      let t ← i_ext16_32 c sg a
      i_ext32_64 c sg t
    else if c.altivec then some (Null.conv sg 64 a)
    else none
  | .r256 =>
    if c.avx2 then
      if c.avx512f then catM 8 (fun p => some (Hw.cvt sg 64 (Hw.part 8 p a)))
      else catM 4 (fun p => cvtMoves c sg 64 4 [0, 4] (Hw.part 8 (p / 2) a) (p % 2))
    else none
  | .r512 => if c.avx512f then catM 8 (fun p => some (Hw.cvt sg 64 (Hw.part 8 p a))) else none

/-- `i_to_uint64(uint8<N>)`, `i_to_int64(int8<N>)` on one register.
Models /repo/simdpp/detail/insn/conv_extend_to_int64.h:240-340, 591-691. -/
def ext8_64 (c : Cfg) (sg : Bool) (r : Reg) (a : Vec 8 n) : Option (Vec 64 n) :=
  match r with
  | .r128 =>
    if c.null then some (Null.conv sg 64 a)
    else if c.avx512f then catM 8 (cvtMoves c sg 64 8 [0, 8] a)
    else if c.avx2 then catM 4 (cvtMoves c sg 64 4 [0, 4, 8, 12] a)
    else if c.sse41 then catM 2 (cvtMoves c sg 64 2 [0, 2, 4, 6, 8, 10, 12, 14] a)
    else if c.sse2 ∨ c.neon ∨ c.msa ∨ c.vsx207 then do
      let t : Vec 32 n ← extAll c (if c.avx512f ∧ ¬ c.avx512bw then 2 else 4) (ext8_32 c sg) a
      i_ext32_64 c sg t
    else if c.altivec then some (Null.conv sg 64 a)
    else none
  | .r256 =>
    if c.avx2 then
      if c.avx512f then catM 8 (fun p => cvtMoves c sg 64 8 [0, 8] (Hw.part 16 (p / 2) a) (p % 2))
      else catM 4 (fun p => cvtMoves c sg 64 4 [0, 4, 8, 12] (Hw.part 16 (p / 4) a) (p % 4))
    else none
  | .r512 =>
    if c.avx512f then catM 8 (fun p => cvtMoves c sg 64 8 [0, 8] (Hw.part 16 (p / 2) a) (p % 2)) else none

/-- `i_to_uint32(uint8<N>)`, `i_to_int32(int8<N>)`.
Models /repo/simdpp/detail/insn/conv_extend_to_int32.h:200-236, 410-446. -/
def i_ext8_32 (c : Cfg) (sg : Bool) (a : Vec 8 N) : Option (Vec 32 N) :=
  extAll c (if c.avx512f ∧ ¬ c.avx512bw then 2 else 4) (ext8_32 c sg) a

/-- `i_to_uint64(uint16<N>)`, `i_to_int64(int16<N>)`. The overload for 32 lanes exists on all AVX-512F builds,
with or without AVX-512BW. Models /repo/simdpp/detail/insn/conv_extend_to_int64.h:182-236, 534-587. -/
def i_ext16_64 (c : Cfg) (sg : Bool) (a : Vec 16 N) : Option (Vec 64 N) :=
  if c.avx512f ∧ N = 32 then ext16_64 c sg .r512 a else extAll c 4 (ext16_64 c sg) a

/-- `i_to_uint64(uint8<N>)`, `i_to_int64(int8<N>)`. The overload for 64 lanes exists on all AVX-512F builds, with or
without AVX-512BW. Models /repo/simdpp/detail/insn/conv_extend_to_int64.h:314-375, 665-726. -/
def i_ext8_64 (c : Cfg) (sg : Bool) (a : Vec 8 N) : Option (Vec 64 N) :=
  if c.avx512f ∧ N = 64 then ext8_64 c sg .r512 a else extAll c 8 (ext8_64 c sg) a

/-! ## Truncation -/

/-- `permute_bytes16(a, make_shuffle_bytes16_mask<...>())` on one register: a mask of `u` indices of `q`-byte elements
applied to a register seen as lanes of any width. -/
def maskPermuteR (c : Cfg) (r : Reg) (q u : Nat) (s : List Nat) (a : Vec w n) : Option (Vec w n) := do
  let M ← makeShuffleMask q u (fun p => ((s.getD p 0 : Nat) : Int))
  let t ← i_permute_bytes16 c r (a.recast 8 (r.lanes 8)) (maskVec16 (r.lanes 8) M)
  some (t.recast w n)

/-- `zip*_lo` on registers seen as lanes of `u` bits; `m` such lanes. -/
def zipAs (c : Cfg) (r : Reg) (u m : Nat) (a b : Vec w n) : Option (Vec w n) :=
  (i_zip_lo c .int r (a.recast u m) (b.recast u m)).map (·.recast w n)

/-- `permute4<s0,s1,s2,s3>` on the four 64-bit lanes of a 256-bit register. -/
def perm64 (c : Cfg) (s0 s1 s2 s3 : Nat) (a : Vec w n) : Option (Vec w n) :=
  (i_permute4_64 c .int .r256 s0 s1 s2 s3 (a.recast 64 4)).map (·.recast w n)

/-- `i_to_uint8(uint16<N>)` into one register. Models /repo/simdpp/detail/insn/conv_shrink_to_int8.h:30-97. -/
def trunc16_8 (c : Cfg) (r : Reg) (a : Vec 16 N) : Option (Vec 8 N) :=
  let mask := [0, 2, 4, 6, 8, 10, 12, 14, 0, 0, 0, 0, 0, 0, 0, 0]
  match r with
  | .r128 =>
    if c.null then some (Null.conv false 8 a)
    else if c.avx512vl then some (Hw.trunc 8 a)
    else if c.ssse3 then
      if c.avx2 then do
        let t ← maskPermuteR c .r256 1 16 mask (a.recast 8 32 : Vec 8 32)
        let t ← perm64 c 0 2 0 2 t
        some (Hw.part N 0 t)
      else do
        let t0 ← maskPermuteR c .r128 1 16 mask ((Hw.part 8 0 a).recast 8 16 : Vec 8 16)
        let t1 ← maskPermuteR c .r128 1 16 mask ((Hw.part 8 1 a).recast 8 16 : Vec 8 16)
        let t ← zipAs c .r128 64 2 t0 t1
        some (t.recast 8 N)
    else if c.neon then catM 8 (fun p => some (Hw.trunc 8 (Hw.part 8 p a)))
    else if c.altivec then some (Hw.vpack (Hw.part 8 0 a) (Hw.part 8 1 a))
    else if c.sse2 ∨ c.msa then do
      let t ← i_unzip_lo c .int .r128 ((Hw.part 8 0 a).recast 8 16 : Vec 8 16) ((Hw.part 8 1 a).recast 8 16)
      some (t.recast 8 N)
    else none
  | .r256 =>
    if c.avx2 then
      if c.avx512bw then some (Hw.trunc 8 a)
      else do
        let t0 ← maskPermuteR c .r256 1 16 mask ((Hw.part 16 0 a).recast 8 32 : Vec 8 32)
        let t1 ← maskPermuteR c .r256 1 16 mask ((Hw.part 16 1 a).recast 8 32 : Vec 8 32)
        let t ← i_shuffle4x2_64 c .int .r256 0 2 4 6 (t0.recast 64 4) (t1.recast 64 4)
        some (t.recast 8 N)
    else none
  | .r512 => if c.avx512bw then catM 32 (fun p => some (Hw.trunc 8 (Hw.part 32 p a))) else none

/-- `i_to_uint16(uint32<N>)` into one register. Models /repo/simdpp/detail/insn/conv_shrink_to_int16.h:27-100. -/
def trunc32_16 (c : Cfg) (r : Reg) (a : Vec 32 N) : Option (Vec 16 N) :=
  let mask := [0, 2, 4, 6, 0, 0, 0, 0]
  match r with
  | .r128 =>
    if c.null then some (Null.conv false 16 a)
    else if c.avx512vl then some (Hw.trunc 16 a)
    else if c.ssse3 then
      if c.avx2 then do
        let t ← maskPermuteR c .r256 2 8 mask (a.recast 16 16 : Vec 16 16)
        let t ← perm64 c 0 2 0 2 t
        some (Hw.part N 0 t)
      else do
        let t0 ← maskPermuteR c .r128 2 8 mask ((Hw.part 4 0 a).recast 16 8 : Vec 16 8)
        let t1 ← maskPermuteR c .r128 2 8 mask ((Hw.part 4 1 a).recast 16 8 : Vec 16 8)
        let t ← zipAs c .r128 64 2 t0 t1
        some (t.recast 16 N)
    else if c.neon then catM 4 (fun p => some (Hw.trunc 16 (Hw.part 4 p a)))
    else if c.altivec then some (Hw.vpack (Hw.part 4 0 a) (Hw.part 4 1 a))
    else if c.sse2 ∨ c.msa then do
      let t ← i_unzip_lo c .int .r128 ((Hw.part 4 0 a).recast 16 8 : Vec 16 8) ((Hw.part 4 1 a).recast 16 8)
      some (t.recast 16 N)
    else none
  | .r256 =>
    if c.avx2 then
      if c.avx512bw then some (Hw.trunc 16 a)
      else do
        let t0 ← maskPermuteR c .r256 2 8 mask ((Hw.part 8 0 a).recast 16 16 : Vec 16 16)
        let t1 ← maskPermuteR c .r256 2 8 mask ((Hw.part 8 1 a).recast 16 16 : Vec 16 16)
        let t ← zipAs c .r256 64 4 t0 t1
        let t ← perm64 c 0 2 1 3 t
        some (t.recast 16 N)
    else none
  | .r512 => if c.avx512bw then catM 16 (fun p => some (Hw.trunc 16 (Hw.part 16 p a))) else none

/-- `i_to_uint32(uint64<N>)` into one register. Models /repo/simdpp/detail/insn/conv_shrink_to_int32.h:25-86. -/
def trunc64_32 (c : Cfg) (r : Reg) (a : Vec 64 N) : Option (Vec 32 N) :=
  match r with
  | .r128 =>
    if c.null then some (Null.conv false 32 a)
    else if c.avx512vl then some (Hw.trunc 32 a)
    else if c.avx2 then do
      let t ← i_permute4_32 c true .int .r256 0 2 0 2 (a.recast 32 8 : Vec 32 8)
      let t ← perm64 c 0 2 0 2 t
      some (Hw.part N 0 t)
    else if c.neon then catM 2 (fun p => some (Hw.trunc 32 (Hw.part 2 p a)))
    else if c.vsx207 then some (Hw.vpack (Hw.part 2 0 a) (Hw.part 2 1 a))
    else if c.sse2 ∨ c.msa ∨ c.altivec then do
      let t ← i_unzip_lo c .int .r128 ((Hw.part 2 0 a).recast 32 4 : Vec 32 4) ((Hw.part 2 1 a).recast 32 4)
      some (t.recast 32 N)
    else none
  | .r256 =>
    if c.avx2 then
      if c.avx512f then some (Hw.trunc 32 a)
      else do
        let t0 ← i_permute4_32 c true .int .r256 0 2 0 2 ((Hw.part 4 0 a).recast 32 8 : Vec 32 8)
        let t1 ← i_permute4_32 c true .int .r256 0 2 0 2 ((Hw.part 4 1 a).recast 32 8 : Vec 32 8)
        let t ← zipAs c .r256 64 4 t0 t1
        let t ← perm64 c 0 2 1 3 t
        some (t.recast 32 N)
    else none
  | .r512 => if c.avx512f then catM 8 (fun p => some (Hw.trunc 32 (Hw.part 8 p a))) else none

/-- A shrinking overload set on a whole vector: the single-register overload when the result is one register, else
the template with the converter. `q` is the number of source registers that the converter collects per destination
register; `stop`: the converter does not go on to the next register. -/
def truncAll (c : Cfg) (q : Nat) (stop : Bool)
    (f : Reg → Vec w ((c.regOf v N).lanes v) → Option (Vec v ((c.regOf v N).lanes v))) (a : Vec w N) : Option (Vec v N) :=
  let r := c.regOf v N
  if h : N = r.lanes v then (f r (h ▸ a)).map (h ▸ ·)
  else convDown q ((c.regOf w N).lanes w) (if stop then 1 else N / r.lanes v) (f r) a

/-- `i_to_uint8(uint16<N>)`. Models /repo/simdpp/detail/insn/conv_shrink_to_int8.h:99-126. -/
def i_trunc16_8 (c : Cfg) (a : Vec 16 N) : Option (Vec 8 N) := truncAll c 2 false (trunc16_8 c) a

/-- `i_to_uint16(uint32<N>)`. Models /repo/simdpp/detail/insn/conv_shrink_to_int16.h:103-135. -/
def i_trunc32_16 (c : Cfg) (a : Vec 32 N) : Option (Vec 16 N) :=
  truncAll c (if c.avx512f ∧ ¬ c.avx512bw then 1 else 2) false (trunc32_16 c) a

/-- `i_to_uint32(uint64<N>)`. Models /repo/simdpp/detail/insn/conv_shrink_to_int32.h:88-115. -/
def i_trunc64_32 (c : Cfg) (a : Vec 64 N) : Option (Vec 32 N) := truncAll c 2 false (trunc64_32 c) a

/-- `i_to_uint8(uint32<N>)` into one register. Models /repo/simdpp/detail/insn/conv_shrink_to_int8.h:129-208. -/
def trunc32_8 (c : Cfg) (r : Reg) (a : Vec 32 N) : Option (Vec 8 N) :=
  let mask := [0, 4, 8, 12, 0, 0, 0, 0, 0, 0, 0, 0, 0, 0, 0, 0]
  match r with
  | .r128 =>
    if c.null then some (Null.conv false 8 a)
    else if c.avx512f then some (Hw.trunc 8 a)
    else if c.ssse3 then do
      let b : Vec 32 16 ←
        if c.avx2 then catM 8 (fun p => maskPermuteR c .r256 1 16 mask (Hw.part 8 p a))
        else catM 4 (fun p => maskPermuteR c .r128 1 16 mask (Hw.part 4 p a))
      let r0 ← i_zip_lo c .int .r128 (Hw.part 4 0 b) (Hw.part 4 1 b)
      let r1 ← i_zip_lo c .int .r128 (Hw.part 4 2 b) (Hw.part 4 3 b)
      let t ← zipAs c .r128 64 2 r0 r1
      some (t.recast 8 N)
    else do
      let t ← i_trunc32_16 c a
      i_trunc16_8 c t
  | .r256 =>
    if c.avx2 then
      if c.avx512f then catM 16 (fun p => some (Hw.trunc 8 (Hw.part 16 p a)))
      else do
        let a0 ← maskPermuteR c .r256 1 16 mask (Hw.part 8 0 a)
        let a1 ← maskPermuteR c .r256 1 16 mask (Hw.part 8 1 a)
        let a2 ← maskPermuteR c .r256 1 16 mask (Hw.part 8 2 a)
        let a3 ← maskPermuteR c .r256 1 16 mask (Hw.part 8 3 a)
        let b0 ← i_zip_lo c .int .r256 a0 a1
        let b1 ← i_zip_lo c .int .r256 a2 a3
        let t ← zipAs c .r256 64 4 b0 b1
        let t : Vec 32 8 ← catM 4 (fun p =>
          if p = 0 then i_unzip_lo c .int .r128 (Hw.part 4 0 t) (Hw.part 4 1 t)
          else i_unzip_hi c .int .r128 (Hw.part 4 0 t) (Hw.part 4 1 t))
        some (t.recast 8 N)
    else none
  | .r512 => if c.avx512bw then catM 16 (fun p => some (Hw.trunc 8 (Hw.part 16 p a))) else none

/-- `i_to_uint16(uint64<N>)` into one register. Models /repo/simdpp/detail/insn/conv_shrink_to_int16.h:138-213. -/
def trunc64_16 (c : Cfg) (r : Reg) (a : Vec 64 N) : Option (Vec 16 N) :=
  let mask := [0, 4, 0, 0, 0, 0, 0, 0]
  match r with
  | .r128 =>
    if c.null then some (Null.conv false 16 a)
    else if c.avx512f then some (Hw.trunc 16 a)
    else if c.avx2 then do
      let a0 ← maskPermuteR c .r256 2 8 mask ((Hw.part 4 0 a).recast 16 16 : Vec 16 16)
      let a1 ← maskPermuteR c .r256 2 8 mask ((Hw.part 4 1 a).recast 16 16 : Vec 16 16)
      let t ← zipAs c .r256 32 8 a0 a1
      let t ← perm64 c 0 2 1 3 t
      let b ← i_permute4_32 c true .int .r128 0 2 1 3 (Hw.part 4 0 (t.recast 32 8 : Vec 32 8))
      some (b.recast 16 N)
    else if c.ssse3 then do
      let a0 ← maskPermuteR c .r128 2 8 mask ((Hw.part 2 0 a).recast 16 8 : Vec 16 8)
      let a1 ← maskPermuteR c .r128 2 8 mask ((Hw.part 2 1 a).recast 16 8 : Vec 16 8)
      let a2 ← maskPermuteR c .r128 2 8 mask ((Hw.part 2 2 a).recast 16 8 : Vec 16 8)
      let a3 ← maskPermuteR c .r128 2 8 mask ((Hw.part 2 3 a).recast 16 8 : Vec 16 8)
      let b0 ← zipAs c .r128 32 4 a0 a1
      let b1 ← zipAs c .r128 32 4 a2 a3
      let t ← zipAs c .r128 64 2 b0 b1
      some (t.recast 16 N)
    else do
      let t ← i_trunc64_32 c a
      i_trunc32_16 c t
  | .r256 =>
    if c.avx2 then
      if c.avx512f then catM 8 (fun p => some (Hw.trunc 16 (Hw.part 8 p a)))
      else do
        let a0 ← maskPermuteR c .r256 2 8 mask ((Hw.part 4 0 a).recast 16 16 : Vec 16 16)
        let a1 ← maskPermuteR c .r256 2 8 mask ((Hw.part 4 1 a).recast 16 16 : Vec 16 16)
        let a2 ← maskPermuteR c .r256 2 8 mask ((Hw.part 4 2 a).recast 16 16 : Vec 16 16)
        let a3 ← maskPermuteR c .r256 2 8 mask ((Hw.part 4 3 a).recast 16 16 : Vec 16 16)
        let b0 ← zipAs c .r256 32 8 a0 a1
        let b1 ← zipAs c .r256 32 8 a2 a3
        let t ← zipAs c .r256 64 4 b0 b1
        let t ← perm64 c 0 2 1 3 t
        let t ← i_permute4_32 c true .int .r256 0 2 1 3 (t.recast 32 8 : Vec 32 8)
        some (t.recast 16 N)
    else none
  | .r512 => if c.avx512bw then catM 8 (fun p => some (Hw.trunc 16 (Hw.part 8 p a))) else none

/-- `_mm_unpacklo_epi64` of two truncated registers. -/
def pairTrunc64_8 (x y : Vec 64 8) : Vec 8 16 :=
  (Hw.unpacklo ((Hw.trunc 8 x : Vec 8 16).recast 64 2 : Vec 64 2) ((Hw.trunc 8 y : Vec 8 16).recast 64 2)).recast 8 16

/-- `i_to_uint8(uint32<N>)`. On AVX-512F builds without AVX-512BW the recursion of the converter is in the other
branch of the conditional. Models /repo/simdpp/detail/insn/conv_shrink_to_int8.h:210-246. -/
def i_trunc32_8 (c : Cfg) (a : Vec 32 N) : Option (Vec 8 N) :=
  if c.avx512f ∧ ¬ c.avx512bw then truncAll c 2 true (trunc32_8 c) a else truncAll c 4 false (trunc32_8 c) a

/-- `i_to_uint8(uint64<N>)` into one register. Models /repo/simdpp/detail/insn/conv_shrink_to_int8.h:249-352. -/
def trunc64_8 (c : Cfg) (r : Reg) (a : Vec 64 N) : Option (Vec 8 N) :=
  let mask := [0, 8, 0, 0, 0, 0, 0, 0, 0, 0, 0, 0, 0, 0, 0, 0]
  let mask2 := [0, 4, 1, 5, 2, 6, 3, 7]
  let p8 (p : Nat) : Option (Vec 8 32) := maskPermuteR c .r256 1 16 mask ((Hw.part 4 p a).recast 8 32)
  match r with
  | .r128 =>
    if c.null then some (Null.conv false 8 a)
    else if c.avx512f then some ((pairTrunc64_8 (Hw.part 8 0 a) (Hw.part 8 1 a)).recast 8 N)
    else if c.avx2 then do
      let b0 ← zipAs c .r256 16 16 (← p8 0) (← p8 1)
      let b1 ← zipAs c .r256 16 16 (← p8 2) (← p8 3)
      let t ← zipAs c .r256 32 8 b0 b1
      let t ← perm64 c 0 2 0 2 t
      let b ← maskPermuteR c .r128 2 8 mask2 (Hw.part 8 0 (t.recast 16 16 : Vec 16 16))
      some (b.recast 8 N)
    else do
      let t ← i_trunc64_32 c a
      i_trunc32_8 c t
  | .r256 =>
    if c.avx2 then
      if c.avx512f then
        catM 16 (fun p => some (pairTrunc64_8 (Hw.part 8 (p * 2) a) (Hw.part 8 (p * 2 + 1) a)))
      else do
        let b0 ← zipAs c .r256 16 16 (← p8 0) (← p8 1)
        let b1 ← zipAs c .r256 16 16 (← p8 2) (← p8 3)
        let b2 ← zipAs c .r256 16 16 (← p8 4) (← p8 5)
        let b3 ← zipAs c .r256 16 16 (← p8 6) (← p8 7)
        let d0 ← zipAs c .r256 32 8 b0 b1
        let d1 ← zipAs c .r256 32 8 b2 b3
        let t ← zipAs c .r256 64 4 d0 d1
        let t ← perm64 c 0 2 1 3 t
        let t ← maskPermuteR c .r256 2 8 mask2 (t.recast 16 16 : Vec 16 16)
        some (t.recast 8 N)
    else none
  | .r512 =>
    if c.avx512bw then catM 16 (fun p => some (pairTrunc64_8 (Hw.part 8 (p * 2) a) (Hw.part 8 (p * 2 + 1) a)))
    else none

/-- `i_to_uint16(uint64<N>)`. Models /repo/simdpp/detail/insn/conv_shrink_to_int16.h:216-252. -/
def i_trunc64_16 (c : Cfg) (a : Vec 64 N) : Option (Vec 16 N) :=
  truncAll c (if c.avx512f ∧ ¬ c.avx512bw then 2 else 4) false (trunc64_16 c) a

/-- `i_to_uint8(uint64<N>)`. Models /repo/simdpp/detail/insn/conv_shrink_to_int8.h:354-387. -/
def i_trunc64_8 (c : Cfg) (a : Vec 64 N) : Option (Vec 8 N) := truncAll c 8 false (trunc64_8 c) a

/-- `to_int{8,16,32,64}(a)`, `to_uint{8,16,32,64}(a)` of a `w`-bit integer vector of signedness `sg`: the same
function for the signed and the unsigned result (a bit cast).
Models /repo/simdpp/core/to_int8.h:36-75, 100-139, /repo/simdpp/core/to_int16.h:40-79, 106-145,
/repo/simdpp/core/to_int32.h:50-89, 125-164, /repo/simdpp/core/to_int64.h:43-82, 121-160. -/
def to_int (c : Cfg) (sg : Bool) (w v : Nat) (a : Vec w N) : Option (Vec v N) :=
  if h : w = v then some (h ▸ a)
  else if h : w = 8 ∧ v = 16 then (h.1 ▸ h.2 ▸ fun a => i_ext8_16 c sg a : Vec w N → Option (Vec v N)) a
  else if h : w = 8 ∧ v = 32 then (h.1 ▸ h.2 ▸ fun a => i_ext8_32 c sg a : Vec w N → Option (Vec v N)) a
  else if h : w = 8 ∧ v = 64 then (h.1 ▸ h.2 ▸ fun a => i_ext8_64 c sg a : Vec w N → Option (Vec v N)) a
  else if h : w = 16 ∧ v = 32 then (h.1 ▸ h.2 ▸ fun a => i_ext16_32 c sg a : Vec w N → Option (Vec v N)) a
  else if h : w = 16 ∧ v = 64 then (h.1 ▸ h.2 ▸ fun a => i_ext16_64 c sg a : Vec w N → Option (Vec v N)) a
  else if h : w = 32 ∧ v = 64 then (h.1 ▸ h.2 ▸ fun a => i_ext32_64 c sg a : Vec w N → Option (Vec v N)) a
  else if h : w = 16 ∧ v = 8 then (h.1 ▸ h.2 ▸ fun a => i_trunc16_8 c a : Vec w N → Option (Vec v N)) a
  else if h : w = 32 ∧ v = 8 then (h.1 ▸ h.2 ▸ fun a => i_trunc32_8 c a : Vec w N → Option (Vec v N)) a
  else if h : w = 64 ∧ v = 8 then (h.1 ▸ h.2 ▸ fun a => i_trunc64_8 c a : Vec w N → Option (Vec v N)) a
  else if h : w = 32 ∧ v = 16 then (h.1 ▸ h.2 ▸ fun a => i_trunc32_16 c a : Vec w N → Option (Vec v N)) a
  else if h : w = 64 ∧ v = 16 then (h.1 ▸ h.2 ▸ fun a => i_trunc64_16 c a : Vec w N → Option (Vec v N)) a
  else if h : w = 64 ∧ v = 32 then (h.1 ▸ h.2 ▸ fun a => i_trunc64_32 c a : Vec w N → Option (Vec v N)) a
  else none

end Simdpp
