import Verif.Model.Move
import Verif.Model.Shuffle64

/-!
# Single lanes and halves: `extract`, `insert`, `splat`, `split`, `combine`
-/

namespace Simdpp

open Sh

variable {w n : Nat}

namespace Hw

/-- Extract lane `i` given as an immediate (`_mm_extract_epi8/16/32/64`, `vgetq_lane_*`,
`__msa_copy_{s,u}_*`; a stored lane read back on AltiVec). The immediate must name a lane. -/
def extr (a : Vec w n) (i : Nat) : Option (BitVec w) := if i < n then some (a.at_ i) else none
/-- Lowest lane (`_mm_cvtsi128_si32/si64`, `_mm_cvtss_f32`, `_mm_cvtsd_f64`). -/
def low (a : Vec w n) : BitVec w := a.at_ 0
/-- The `q`-th part of `L` lanes (`_mm256_extracti128_si256`, `_mm512_extracti32x4_epi32`,
`_mm512_extracti64x4_epi64`, `_mm256_castsi256_si128` and float versions). The lanes are those of the
vector at hand: the instructions move whole 128- or 256-bit blocks. -/
def part (L q : Nat) (a : Vec w n) : Vec w L := fun i => a.at_ (q * L + i.val)
/-- Replace the `q`-th part of `L` lanes (`_mm256_inserti128_si256`, `_mm512_inserti32x4`,
`_mm512_inserti64x4` and float versions). -/
def putPart {L : Nat} (a : Vec w n) (x : Vec w L) (q : Nat) : Vec w n := fun i =>
  if i.val / L = q then x.at_ (i.val % L) else a i
/-- Replace lane `i` given as an immediate (`_mm_insert_epi8/16/32/64`, `vsetq_lane_*`,
`__msa_insert_*`; a store into the memory copy on AltiVec; `a.el(id) = x` on the portable build). -/
def ins (a : Vec w n) (i : Nat) (x : BitVec w) : Option (Vec w n) :=
  if i < n then some (fun j => if j.val = i then x else a j) else none
/-- `x` in lane 0, zeros elsewhere (`_mm_cvtsi32_si128`, `_mm_cvtsi64_si128`). -/
def ofLow (x : BitVec w) : Vec w n := fun i => if i.val = 0 then x else 0
/-- `_mm_movehdup_ps`: the odd lanes duplicated. -/
def movehdup (a : Vec 32 n) : Vec 32 n := gather 4 (fun j => j / 2 * 2 + 1) a a
/-- Copy lane 0 to all lanes (`_mm*_broadcastb_epi8`, `_mm*_broadcastw_epi16`). -/
def broadcast {m : Nat} (a : Vec w m) : Vec w n := Vec.splat (a.at_ 0)
/-- Copy lane `s` to all lanes (`vdupq_laneq_*`, `vec_splat`, `__msa_splat_*`). -/
def dupLane (a : Vec w n) (s : Nat) : Option (Vec w n) := if s < n then some (Vec.splat (a.at_ s)) else none
/-- Low half and high half of a register (`vget_low_*`, `vget_high_*`). -/
def half (hi : Bool) (a : Vec w n) : Vec w (n / 2) := part (n / 2) (if hi then 1 else 0) a
/-- Copy lane `s` of a half-width register to all lanes (`vdupq_lane_*`). -/
def dupHalf (a : Vec w (n / 2)) (s : Nat) : Option (Vec w n) := if s < n / 2 then some (Vec.splat (a.at_ s)) else none
/-- `_mm256_permute2x128_si256`, `_mm256_permute2f128_ps/pd`. -/
def permute2x128 (a b : Vec w n) (imm : Nat) : Vec w n := fun i =>
  let q := i.val / (128 / w)
  let ctl := imm >>> (4 * q)
  if ctl.testBit 3 then 0
  else if ctl % 4 < 2 then a.at_ (ctl % 4 * (128 / w) + i.val % (128 / w))
  else b.at_ ((ctl % 4 - 2) * (128 / w) + i.val % (128 / w))
/-- `_mm512_shuffle_i32x4`, `_mm512_shuffle_i64x2`, `_mm512_shuffle_f32x4`, `_mm512_shuffle_f64x2`. -/
def shuffle_x128 (a b : Vec w n) (imm : Nat) : Vec w n := fun i =>
  let q := i.val / (128 / w)
  if q < 2 then a.at_ (imm2 imm q * (128 / w) + i.val % (128 / w))
  else b.at_ (imm2 imm q * (128 / w) + i.val % (128 / w))

end Hw

/-- `move{16,8,4,2}_l<s>` on one 128-bit register (the public function with its wrapper). -/
def moveL1 (c : Cfg) (k : Kind) (s : Nat) (a : Vec w n) : Option (Vec w n) :=
  moveWrap (128 / w) s (Vec.splat 0) (i_move_l c k .r128 s) a

/-! ## extract -/

/-- `i_extract<id>` of `uint8<16>` (and `int8<16>`, which reads the same bits).
Models /repo/simdpp/detail/insn/extract.h:29-52, 74-82. -/
def i_extract8 (c : Cfg) (id : Nat) (a : Vec 8 n) : Option (BitVec 8) :=
  if c.null then rd a id
  else if c.sse41 then Hw.extr a id
  else if c.sse2 then
    (Hw.extr (a.recast 16 (n / 2)) (id / 2)).map fun x =>
      ((x.setWidth 32).ushiftRight (if id % 2 = 1 then 8 else 0)).setWidth 8
  else if c.neon ∨ c.altivec ∨ c.msa then Hw.extr a id
  else none

/-- `i_extract<id>` of `uint16<8>`, `int16<8>`. Models /repo/simdpp/detail/insn/extract.h:104-120, 142-150. -/
def i_extract16 (c : Cfg) (id : Nat) (a : Vec 16 n) : Option (BitVec 16) :=
  if c.null then rd a id
  else if c.sse2 ∨ c.neon ∨ c.altivec ∨ c.msa then Hw.extr a id
  else none

/-- `i_extract<id>` of `uint32<4>`, `int32<4>`. Models /repo/simdpp/detail/insn/extract.h:172-191, 213-221. -/
def i_extract32 (c : Cfg) (id : Nat) (a : Vec 32 n) : Option (BitVec 32) :=
  if c.null then rd a id
  else if c.sse41 then Hw.extr a id
  else if c.sse2 then (moveL1 c .int id a).map Hw.low
  else if c.neon ∨ c.altivec ∨ c.msa then Hw.extr a id
  else none

/-- Two 32-bit halves joined as unsigned 64-bit numbers: `lo | (uint64_t(hi) << 32)`. -/
def join32 (lo hi : BitVec 32) : BitVec 64 := lo.setWidth 64 ||| (hi.setWidth 64 <<< 32)

/-- `int64_t lo, hi` from sign-extending lane reads, `lo | (hi << 32)`; shifting a negative value left is
undefined (before C++20). Models /repo/simdpp/detail/insn/extract.h:317-320. -/
def joinSigned (lo hi : BitVec 32) : Option (BitVec 64) :=
  if hi.toInt < 0 then none else some (lo.signExtend 64 ||| (hi.signExtend 64 <<< 32))

/-- `if (id != 0) t = move2_l<id>(t)`. Models /repo/simdpp/detail/insn/extract.h:267-270. -/
def moveNonzero (c : Cfg) (id : Nat) (a : Vec 64 n) : Option (Vec 64 n) :=
  if id ≠ 0 then moveL1 c .int id a else some a

/-- `i_extract<id>` of `uint64<2>` (`sg = false`) and `int64<2>` (`sg = true`).
Models /repo/simdpp/detail/insn/extract.h:243-288, 310-325. -/
def i_extract64 (c : Cfg) (sg : Bool) (id : Nat) (a : Vec 64 n) : Option (BitVec 64) :=
  if c.null then rd a id
  else if c.sse41 then
    if c.bits64 then Hw.extr a id
    else do
      let lo ← i_extract32 c (id * 2) (a.recast 32 4)
      let hi ← i_extract32 c (id * 2 + 1) (a.recast 32 4)
      some (join32 lo hi)
  else if c.sse2 then
    if c.bits64 then (moveNonzero c id a).map Hw.low
    else do
      let t ← moveL1 c .int (id * 2) (a.recast 32 4)
      let lo ← i_extract32 c 0 t
      let u ← moveL1 c .int 1 t
      let hi ← i_extract32 c 0 u
      some (join32 lo hi)
  else if c.neon ∨ c.altivec then Hw.extr a id
  else if c.msa then
    if c.bits64 then Hw.extr a id
    else do
      let lo ← Hw.extr (a.recast 32 4 : Vec 32 4) (id * 2)
      let hi ← Hw.extr (a.recast 32 4 : Vec 32 4) (id * 2 + 1)
      if sg then joinSigned lo hi else some (join32 lo hi)
  else none

/-- `i_extract<id>` of `float32<4>`. Models /repo/simdpp/detail/insn/extract.h:347-369. -/
def i_extract32f (c : Cfg) (id : Nat) (a : Vec 32 n) : Option (BitVec 32) :=
  if c.null ∨ c.neonNoFltSp then rd a id
  else if c.sse2 then
    if id = 0 then some (Hw.low a)
    else if id = 1 then
      if c.sse3 then some (Hw.low (Hw.movehdup a)) else some (Hw.low (Hw.shuffle_ps a a (mmShuffle id id id id)))
    else if id = 2 then some (Hw.low (Hw.unpackhi a a))
    else if id = 3 then some (Hw.low (Hw.shuffle_ps a a (mmShuffle id id id id)))
    else none
  else if c.neon ∨ c.altivec ∨ c.msa then Hw.extr a id
  else none

/-- `i_extract<id>` of `float64<2>`. Models /repo/simdpp/detail/insn/extract.h:391-407. -/
def i_extract64f (c : Cfg) (id : Nat) (a : Vec 64 n) : Option (BitVec 64) :=
  if c.null then rd a id
  else if c.sse2 then
    if id = 0 then some (Hw.low a) else some (Hw.low (Hw.unpackhi a a))
  else if c.neon32 ∨ c.altivec ∨ c.msa ∨ c.neon64 then Hw.extr a id
  else none

/-- `i_extract<id>` on one 128-bit register of any lane type. -/
def i_extract128 (c : Cfg) (k : Kind) (sg : Bool) (id : Nat) (a : Vec w n) : Option (BitVec w) :=
  if h : w = 8 then (h ▸ fun (a : Vec 8 n) => i_extract8 c id a : Vec w n → Option (BitVec w)) a
  else if h : w = 16 then (h ▸ fun (a : Vec 16 n) => i_extract16 c id a : Vec w n → Option (BitVec w)) a
  else if h : w = 32 then
    (h ▸ fun (a : Vec 32 n) => if k = .int then i_extract32 c id a else i_extract32f c id a : Vec w n → Option (BitVec w)) a
  else if h : w = 64 then
    (h ▸ fun (a : Vec 64 n) => if k = .int then i_extract64 c sg id a else i_extract64f c id a : Vec w n → Option (BitVec w)) a
  else none

/-- `_mm256_cvtsd_f64(_mm256_permute4x64_pd(a, ...))`, the AVX2 shortcut for lane 3.
Models /repo/simdpp/detail/insn/extract.h:413-417. -/
def extract64f_3 (a : Vec w n) : BitVec w := Hw.low (gather 4 (fun j => Hw.imm2 (mmShuffle 3 3 3 3) j) a a)

/-- `i_extract<id>` on one register.
Models /repo/simdpp/detail/insn/extract.h:54-70, 84-100, 122-138, 152-168, 193-209, 223-239, 290-306, 327-343,
371-387, 409-433. -/
def i_extract (c : Cfg) (k : Kind) (sg : Bool) (r : Reg) (id : Nat) (a : Vec w n) : Option (BitVec w) :=
  match r with
  | .r128 => i_extract128 c k sg id a
  | r =>
    if ¬ c.hasVec k w r then none
    else if w ≤ 32 ∧ k = .int then Hw.extr (Hw.part (128 / w) (id / (128 / w)) a) (id % (128 / w))
    else if w = 64 ∧ k = .flt ∧ r = .r256 ∧ c.avx2 ∧ id = 3 then some (extract64f_3 a)
    -- the 64-bit cases go through uint64<2> also for int64
    else i_extract128 c k false (id % (128 / w)) (Hw.part (128 / w) (id / (128 / w)) a)

/-- `extract<id>(v)`, `v` of `K` registers.
Models /repo/simdpp/core/extract.h:29-97 and /repo/simdpp/detail/insn/extract.h:437-442. -/
def extract (c : Cfg) (k : Kind) (sg : Bool) (r : Reg) (id : Nat) {K : Nat} (a : Fin K → Vec w (r.lanes w)) :
    Option (BitVec w) :=
  if ¬ id < K * r.lanes w then none
  else (vecRd a (id / r.lanes w)).bind (i_extract c k sg r (id % r.lanes w))

/-! ## insert -/

/-- `i_insert<id>` of `uint8x16`. Models /repo/simdpp/detail/insn/insert.h:29-57. -/
def i_insert8 (c : Cfg) (id : Nat) (a : Vec 8 n) (x : BitVec 8) : Option (Vec 8 n) :=
  if c.null then Hw.ins a id x
  else if c.sse41 then Hw.ins a id x
  else if c.sse2 then do
    let q ← Hw.extr (a.recast 16 (n / 2)) (id / 2)
    let q' := if id % 2 = 1 then (q &&& 0x00ff#16) ||| (x.setWidth 16 <<< 8) else (q &&& 0xff00#16) ||| x.setWidth 16
    let b ← Hw.ins (a.recast 16 (n / 2)) (id / 2) q'
    some (b.recast 8 n)
  else if c.neon ∨ c.altivec ∨ c.msa then Hw.ins a id x
  else none

/-- `i_insert<id>` of `uint16x8`. Models /repo/simdpp/detail/insn/insert.h:83-102. -/
def i_insert16 (c : Cfg) (id : Nat) (a : Vec 16 n) (x : BitVec 16) : Option (Vec 16 n) :=
  if c.null ∨ c.sse2 ∨ c.neon ∨ c.altivec ∨ c.msa then Hw.ins a id x else none

/-- `i_insert<id>` of `uint32x4`. Models /repo/simdpp/detail/insn/insert.h:128-154. -/
def i_insert32 (c : Cfg) (id : Nat) (a : Vec 32 n) (x : BitVec 32) : Option (Vec 32 n) :=
  if c.null then Hw.ins a id x
  else if c.sse41 then Hw.ins a id x
  else if c.sse2 then do
    let lo := x.setWidth 16
    let hi := (x >>> 16).setWidth 16
    let a1 ← i_insert16 c (id * 2) (a.recast 16 (n * 2)) lo
    let a2 ← i_insert16 c (id * 2 + 1) a1 hi
    some (a2.recast 32 n)
  else if c.neon ∨ c.altivec ∨ c.msa then Hw.ins a id x
  else none

/-- The 64-bit value in the low half of a register on SSE2.
Models /repo/simdpp/detail/insn/insert.h:198-200 (32-bit builds), 208 (64-bit builds). -/
def low64 (c : Cfg) (x : BitVec 64) : Option (Vec 64 2) :=
  if c.bits64 then some (Hw.ofLow x)
  else (i_zip_lo c .int .r128 (Hw.ofLow (x.setWidth 32) : Vec 32 4) (Hw.ofLow ((x >>> 32).setWidth 32))).map
    (fun v => v.recast 64 2)

/-- `i_insert<id>` of `uint64x2`. Models /repo/simdpp/detail/insn/insert.h:180-234. -/
def i_insert64 (c : Cfg) (id : Nat) (a : Vec 64 2) (x : BitVec 64) : Option (Vec 64 2) :=
  if c.null then Hw.ins a id x
  else if c.sse41 then
    if c.bits64 then Hw.ins a id x
    else do
      let a1 ← i_insert32 c (id * 2) (a.recast 32 4) (x.setWidth 32)
      let a2 ← i_insert32 c (id * 2 + 1) a1 ((x >>> 32).setWidth 32)
      some (a2.recast 64 2)
  else if c.sse2 then do
    let vx ← low64 c x
    if id = 0 then shuffle1_64 c .int .r128 0 1 vx a else shuffle1_64 c .int .r128 0 0 a vx
  else if c.neon ∨ c.altivec then Hw.ins a id x
  else if c.msa then
    if c.bits64 then Hw.ins a id x
    else do
      let a1 ← Hw.ins (a.recast 32 4 : Vec 32 4) (id * 2) (x.setWidth 32)
      let a2 ← Hw.ins a1 (id * 2 + 1) ((x >>> 32).setWidth 32)
      some (a2.recast 64 2)
  else none

/-- `i_insert<id>` of `float32x4`. Models /repo/simdpp/detail/insn/insert.h:260-268. -/
def i_insert32f (c : Cfg) (id : Nat) (a : Vec 32 n) (x : BitVec 32) : Option (Vec 32 n) :=
  if c.neonFltSp then Hw.ins a id x else i_insert32 c id a x

/-- `i_insert<id>` of `float64x2`. Models /repo/simdpp/detail/insn/insert.h:294-307. -/
def i_insert64f (c : Cfg) (id : Nat) (a : Vec 64 2) (x : BitVec 64) : Option (Vec 64 2) :=
  if c.sse2 then
    if id = 0 then some (Hw.shuffle_pd (Vec.splat x) a 0x2)
    else if id = 1 then some (Hw.shuffle_pd a (Vec.splat x) 0x2)
    else none
  else i_insert64 c id a x

/-- `i_insert<id>` on one 128-bit register of any lane type (signed vectors are cast to unsigned and back,
/repo/simdpp/core/insert.h:40-45, 54-59, 68-73, 82-87). -/
def i_insert128 (c : Cfg) (k : Kind) (id : Nat) (a : Vec w (128 / w)) (x : BitVec w) : Option (Vec w (128 / w)) :=
  if h : w = 8 then
    (h ▸ fun (a : Vec 8 16) x => i_insert8 c id a x : Vec w (128 / w) → BitVec w → Option (Vec w (128 / w))) a x
  else if h : w = 16 then
    (h ▸ fun (a : Vec 16 8) x => i_insert16 c id a x : Vec w (128 / w) → BitVec w → Option (Vec w (128 / w))) a x
  else if h : w = 32 then
    (h ▸ fun (a : Vec 32 4) x => if k = .int then i_insert32 c id a x else i_insert32f c id a x :
      Vec w (128 / w) → BitVec w → Option (Vec w (128 / w))) a x
  else if h : w = 64 then
    (h ▸ fun (a : Vec 64 2) x => if k = .int then i_insert64 c id a x else i_insert64f c id a x :
      Vec w (128 / w) → BitVec w → Option (Vec w (128 / w))) a x
  else none

/-- Extract the 128-bit part, insert into it, put it back. -/
def insertVia {L : Nat} (op : Vec w L → Option (Vec w L)) (q : Nat) (a : Vec w n) : Option (Vec w n) :=
  (op (Hw.part L q a)).map (fun y => Hw.putPart a y q)

/-- `i_insert<id>` on one register.
Models /repo/simdpp/detail/insn/insert.h:59-79, 104-124, 156-176, 236-256, 270-290, 309-339. -/
def i_insert (c : Cfg) (k : Kind) (r : Reg) (id : Nat) (a : Vec w (r.lanes w)) (x : BitVec w) :
    Option (Vec w (r.lanes w)) :=
  match r with
  | .r128 => i_insert128 c k id a x
  | r =>
    if ¬ c.hasVec k w r then none
    else if w ≤ 32 ∧ k = .int then
      insertVia (L := 128 / w) (fun p => Hw.ins p (id % (128 / w)) x) (id / (128 / w)) a
    else if w = 64 ∧ k = .flt ∧ r = .r256 ∧ c.avx2 then
      if id < 4 then some (Hw.blendi a (Vec.splat x) (1 <<< id)) else none
    else insertVia (L := 128 / w) (fun p => i_insert128 c k (id % (128 / w)) p x) (id / (128 / w)) a

/-- `insert<id>(v, x)`, `v` of `K` registers.
Models /repo/simdpp/core/insert.h:33-101 and /repo/simdpp/detail/insn/insert.h:343-351. -/
def insert (c : Cfg) (k : Kind) (r : Reg) (id : Nat) {K : Nat} (a : Fin K → Vec w (r.lanes w)) (x : BitVec w) :
    Option (Fin K → Vec w (r.lanes w)) :=
  if ¬ id < K * r.lanes w then none
  else do
    let base ← vecRd a (id / r.lanes w)
    let y ← i_insert c k r (id % r.lanes w) base x
    if h : id / r.lanes w < K then some (Arr.set a ⟨id / r.lanes w, h⟩ y) else none

/-! ## splat within 128-bit blocks -/

/-- The NEON (32-bit) `vget_low`/`vget_high` and `vdupq_lane` sequence.
Models /repo/simdpp/detail/insn/splat_n.h:74-80, 145-151, 217-225, 273-279, 327-335. -/
def neonSplat (s : Nat) (a : Vec w n) : Option (Vec w n) :=
  if s < n / 2 then Hw.dupHalf (Hw.half false a) (if s < n / 2 then s else 0)
  else Hw.dupHalf (Hw.half true a) (if s < n / 2 then 0 else s - n / 2)

/-- `i_splat8<s>` on one register of 16-bit lanes. Models /repo/simdpp/detail/insn/splat_n.h:118-195. -/
def i_splat8 (c : Cfg) (r : Reg) (s : Nat) (a : Vec 16 n) : Option (Vec 16 n) :=
  let lohi : Option (Vec 16 n) :=
    if s < 4 then
      (i_permute2_64 c .int r 0 0 ((Hw.shufflelo_epi16 a (mask4x4 s s s s)).recast 64 (n / 4))).map (fun v => v.recast 16 n)
    else
      (i_permute2_64 c .int r 1 1 ((Hw.shufflehi_epi16 a (mask4x4 (s - 4) (s - 4) (s - 4) (s - 4))).recast 64 (n / 4))).map
        (fun v => v.recast 16 n)
  if ¬ s < 8 then none else
  match r with
  | .r128 =>
    if c.null then Null.splat s a
    else if c.avx2 then (moveL1 c .int s a).map Hw.broadcast
    else if c.ssse3 then maskPermute c 2 8 (fun _ => s) a
    else if c.sse2 then lohi
    else if c.neon64 then Hw.dupLane a s
    else if c.neon then neonSplat s a
    else if c.altivec ∨ c.msa then Hw.dupLane a s
    else none
  | r => if c.hasInt 16 r then lohi else none

/-- Both bytes of every 16-bit lane set to its byte `s % 2` (`n1 | n2`).
Models /repo/simdpp/detail/insn/splat_n.h:62-69. -/
def dupByte (s : Nat) (a : Vec 16 n) : Vec 16 n :=
  if s % 2 = 1 then fun i => Hw.srl a 8 i ||| Hw.sll (Hw.srl a 8) 8 i
  else fun i => Hw.sll a 8 i ||| Hw.srl (Hw.sll a 8) 8 i

/-- `s < 8 ? zip16_lo(a, a) : zip16_hi(a, a)`. Models /repo/simdpp/detail/insn/splat_n.h:93, 104. -/
def zipSelf (c : Cfg) (r : Reg) (s : Nat) (a : Vec 8 n) : Option (Vec 8 n) :=
  if s < 8 then i_zip_lo c .int r a a else i_zip_hi c .int r a a

/-- `i_splat16<s>` on one register of bytes. Models /repo/simdpp/detail/insn/splat_n.h:45-107. -/
def i_splat16 (c : Cfg) (r : Reg) (s : Nat) (a : Vec 8 n) : Option (Vec 8 n) :=
  if ¬ s < 16 then none else
  match r with
  | .r128 =>
    if c.null then Null.splat s a
    else if c.avx2 then (moveL1 c .int s a).map Hw.broadcast
    else if c.ssse3 then maskPermute c 1 16 (fun _ => s) a
    else if c.sse2 then (i_splat8 c .r128 (s / 2) (dupByte s (a.recast 16 (n / 2)))).map (fun v => v.recast 8 n)
    else if c.neon64 then Hw.dupLane a s
    else if c.neon then neonSplat s a
    else if c.altivec ∨ c.msa then Hw.dupLane a s
    else none
  | r =>
    if ¬ c.hasInt 8 r then none
    else do
      let b ← zipSelf c r s a
      let t ← i_splat8 c r (s % 8) (b.recast 16 (n / 2))
      some (t.recast 8 n)

/-- `i_splat4<s>` on one register of 32-bit lanes (`gnuc`: which spelling of the shuffle the compiler takes).
Models /repo/simdpp/detail/insn/splat_n.h:206-249, 316-359. -/
def i_splat4 (c : Cfg) (gnuc : Bool) (k : Kind) (r : Reg) (s : Nat) (a : Vec 32 n) : Option (Vec 32 n) :=
  if ¬ s < 4 then none else
  match r with
  | .r128 =>
    if c.null ∨ (k = .flt ∧ c.neonNoFltSp) then Null.splat s a
    else if c.sse2 then i_permute4_32 c gnuc k .r128 s s s s a
    else if c.neon64 then Hw.dupLane a s
    else if c.neon then neonSplat s a
    else if c.altivec ∨ c.msa then Hw.dupLane a s
    else none
  | r => if c.hasVec k 32 r then i_permute4_32 c gnuc k r s s s s a else none

/-- `i_splat2<s>` on one register of 64-bit lanes. Models /repo/simdpp/detail/insn/splat_n.h:260-305, 370-403. -/
def i_splat2 (c : Cfg) (k : Kind) (r : Reg) (s : Nat) (a : Vec 64 n) : Option (Vec 64 n) :=
  if ¬ s < 2 then none else
  match r with
  | .r128 =>
    if c.sse2 then
      if s = 0 then i_permute2_64 c k .r128 0 0 a else i_permute2_64 c k .r128 1 1 a
    else if c.neon64 then Hw.dupLane a s
    else if k = .int ∧ c.neon then neonSplat s a
    else if (k = .int ∧ c.vsx207) ∨ (k = .flt ∧ c.vsx206) ∨ c.msa then Hw.dupLane a s
    else if c.null ∨ c.altivec ∨ (k = .flt ∧ c.neon) then Null.splat s a
    else none
  | r => if c.hasVec k 64 r then i_permute2_64 c k r s s a else none

/-- `i_splat{16,8,4,2}<s>` on one register. -/
def i_splat_n (c : Cfg) (gnuc : Bool) (k : Kind) (r : Reg) (s : Nat) (a : Vec w n) : Option (Vec w n) :=
  if h : w = 8 then (h ▸ fun (a : Vec 8 n) => i_splat16 c r s a : Vec w n → Option (Vec w n)) a
  else if h : w = 16 then (h ▸ fun (a : Vec 16 n) => i_splat8 c r s a : Vec w n → Option (Vec w n)) a
  else if h : w = 32 then (h ▸ fun (a : Vec 32 n) => i_splat4 c gnuc k r s a : Vec w n → Option (Vec w n)) a
  else if h : w = 64 then (h ▸ fun (a : Vec 64 n) => i_splat2 c k r s a : Vec w n → Option (Vec w n)) a
  else none

/-- `splat{16,8,4,2}<s>(v)`. Models /repo/simdpp/core/splat_n.h:43-183 and the array versions
/repo/simdpp/detail/insn/splat_n.h:109-114, 197-202, 251-256, 307-312, 361-366, 405-410. -/
def splat_n (c : Cfg) (gnuc : Bool) (k : Kind) (r : Reg) (s : Nat) {K : Nat} (a d : Fin K → Vec w n) :
    Option (Fin K → Vec w n) :=
  if ¬ s < 128 / w then none else Arr.apply1 (i_splat_n c gnuc k r s) a 0 d

/-! ## splat over the whole vector -/

/-- Byte and 16-bit lanes of wide registers: move the lane to the bottom of its 128-bit part and broadcast.
Models /repo/simdpp/detail/insn/splat.h:34-56, 66-88 and /repo/simdpp/detail/extract128.h:21-30, 59-72. -/
def splatBcast (c : Cfg) (s : Nat) (a : Vec w n) : Option (Vec w n) :=
  (moveL1 c .int (s % (128 / w)) (Hw.part (128 / w) (s / (128 / w)) a)).map Hw.broadcast

/-- `i_splat<s>` on a 256-bit register of 32-bit lanes. Models /repo/simdpp/detail/insn/splat.h:98-108, 160-169
and /repo/simdpp/detail/insn/shuffle128.h:106-137. -/
def splat256_32 (c : Cfg) (gnuc : Bool) (k : Kind) (s : Nat) (a : Vec 32 8) : Option (Vec 32 8) :=
  let x128 := fun (a : Vec 32 8) => Hw.permute2x128 a a (((s / 4 + 2) <<< 4) + s / 4)
  if k = .int then
    if c.avx2 then (i_permute4_32 c gnuc k .r256 (s % 4) (s % 4) (s % 4) (s % 4) a).map x128 else none
  else if c.avx then i_permute4_32 c gnuc k .r256 (s % 4) (s % 4) (s % 4) (s % 4) (x128 a)
  else none

/-- `i_splat<s>` on a 512-bit register of 32-bit lanes. Models /repo/simdpp/detail/insn/splat.h:110-120, 171-182
and /repo/simdpp/detail/insn/shuffle128.h:65-70. -/
def splat512_32 (c : Cfg) (gnuc : Bool) (k : Kind) (s : Nat) (a : Vec 32 16) : Option (Vec 32 16) :=
  if c.avx512f then
    (i_permute4_32 c gnuc k .r512 (s % 4) (s % 4) (s % 4) (s % 4) a).map
      fun a => Hw.shuffle_x128 a a (if k = .int then ((s / 4) <<< 6) + ((s / 4) <<< 4) + ((s / 4) <<< 2) + s / 4
        else mask4x4 (s / 4) (s / 4) (s / 4) (s / 4))
  else none

/-- `i_splat<s>` on a 256-bit register of 64-bit lanes. Models /repo/simdpp/detail/insn/splat.h:130-137, 192-206
and /repo/simdpp/detail/insn/shuffle128.h:139-150. -/
def splat256_64 (c : Cfg) (k : Kind) (s : Nat) (a : Vec 64 4) : Option (Vec 64 4) :=
  if c.avx2 then i_permute4_64 c k .r256 s s s s a
  else if k = .flt ∧ c.avx then
    i_permute2_64 c k .r256 (s % 2) (s % 2) (Hw.permute2x128 a a (((s / 2 + 2) <<< 4) + s / 2))
  else none

/-- `i_splat<s>` on a 512-bit register of 64-bit lanes. Models /repo/simdpp/detail/insn/splat.h:139-150, 208-219. -/
def splat512_64 (c : Cfg) (k : Kind) (s : Nat) (a : Vec 64 8) : Option (Vec 64 8) :=
  if c.avx512f then
    (i_permute2_64 c k .r512 (s % 2) (s % 2) a).map
      fun a => Hw.shuffle_x128 a a (mask4x4 (s / 2) (s / 2) (s / 2) (s / 2))
  else none

/-- `i_splat<s>` on one register. Models /repo/simdpp/detail/insn/splat.h:28-219. -/
def i_splat (c : Cfg) (gnuc : Bool) (k : Kind) (r : Reg) (s : Nat) (a : Vec w (r.lanes w)) : Option (Vec w (r.lanes w)) :=
  match r with
  | .r128 => i_splat_n c gnuc k .r128 s a
  | .r256 =>
    if w ≤ 16 then if c.avx2 then splatBcast c s a else none
    else if h : w = 32 then
      (h ▸ fun (a : Vec 32 8) => splat256_32 c gnuc k s a : Vec w (256 / w) → Option (Vec w (256 / w))) a
    else if h : w = 64 then
      (h ▸ fun (a : Vec 64 4) => splat256_64 c k s a : Vec w (256 / w) → Option (Vec w (256 / w))) a
    else none
  | .r512 =>
    if w ≤ 16 then if c.avx512bw then splatBcast c s a else none
    else if h : w = 32 then
      (h ▸ fun (a : Vec 32 16) => splat512_32 c gnuc k s a : Vec w (512 / w) → Option (Vec w (512 / w))) a
    else if h : w = 64 then
      (h ▸ fun (a : Vec 64 8) => splat512_64 c k s a : Vec w (512 / w) → Option (Vec w (512 / w))) a
    else none

/-- `for (i = 0; i < vec_length; ++i) r.vec(i) = one`. Models /repo/simdpp/detail/insn/splat.h:233-237. -/
def fillAll {α : Type} {K : Nat} (one : α) (I : Nat) (r : Fin K → α) : Fin K → α :=
  if h : I < K then fillAll one (I + 1) (Arr.set r ⟨I, h⟩ one) else r
termination_by K - I

/-- `splat<s>(v)`, `v` of `K` registers (`d`: the uninitialised result).
Models /repo/simdpp/core/splat.h:79-86 and /repo/simdpp/detail/insn/splat.h:223-238. -/
def splat (c : Cfg) (gnuc : Bool) (k : Kind) (r : Reg) (s : Nat) {K : Nat} (a d : Fin K → Vec w (r.lanes w)) :
    Option (Fin K → Vec w (r.lanes w)) :=
  if ¬ s < K * r.lanes w then none
  else do
    let one ← vecRd a (s / r.lanes w)
    let one ← i_splat c gnuc k r (s % r.lanes w) one
    some (fillAll one 0 d)

/-! ## split and combine -/

/-- `i_split` of one wide register into two registers of half the width.
Models /repo/simdpp/detail/insn/split.h:22-138. -/
def i_split (c : Cfg) (k : Kind) (r : Reg) (a : Vec w (n + n)) : Option (Vec w n × Vec w n) :=
  match r with
  | .r128 => none
  | r => if c.hasVec k w r then some (Hw.part n 0 a, Hw.part n 1 a) else none

/-- `i_combine` of two registers into one twice as wide; `u` is what the instruction
`_mm256_castsi128_si256` (etc.) leaves in the upper half.
Models /repo/simdpp/detail/insn/combine.h:22-163. -/
def i_combine (c : Cfg) (k : Kind) (r : Reg) (u : Vec w (n + n)) (a b : Vec w n) : Option (Vec w (n + n)) :=
  match r with
  | .r128 => none
  | r =>
    if c.hasVec k w r then
      let t : Vec w (n + n) := fun i => if i.val < n then a.at_ i.val else u i
      some (Hw.putPart t b 1)
    else none

/-- `split_unroll<I, End>::split`: `H` registers to each half.
Models /repo/simdpp/detail/insn/split.h:143-163. -/
def splitUnroll {α : Type} {H : Nat} (src : Fin (H + H) → α) (I : Nat) (d1 d2 : Fin H → α) : (Fin H → α) × (Fin H → α) :=
  if h : I < H then
    splitUnroll src (I + 1) (Arr.set d1 ⟨I, h⟩ (src ⟨I, by omega⟩)) (Arr.set d2 ⟨I, h⟩ (src ⟨I + H, by omega⟩))
  else (d1, d2)
termination_by H - I

/-- `combine_unroll<I, End>::combine`. Models /repo/simdpp/detail/insn/combine.h:168-192. -/
def combineUnroll {α : Type} {H : Nat} (s1 s2 : Fin H → α) (I : Nat) (d : Fin (H + H) → α) : Fin (H + H) → α :=
  if h : I < H then
    combineUnroll s1 s2 (I + 1)
      (Arr.set (Arr.set d ⟨I, by omega⟩ (s1 ⟨I, h⟩)) ⟨I + H, by omega⟩ (s2 ⟨I, h⟩))
  else d
termination_by H - I

end Simdpp
